import Verif.Lemmas.Whole
import Verif.Props.Program
import Verif.Props.Details
import Verif.Props.Discovery
import Verif.Props.Config
import Verif.Props.Build
import Verif.Props.Print
import Verif.Props.Chars

/-!
# C69: the complete program
-/
namespace Boxes
open Spec ShapeName
set_option linter.unusedSimpArgs false

/-! ## the command line -/

theorem optionLoop_early : ∀ (opts : List Option') (a0 a : Args), optionLoop opts a0 = some (a, true) →
    ∃ pre post b, optionLoop pre a0 = some (b, false) ∧
      ((opts = pre ++ .help :: post ∧ a = { b with help := true }) ∨ (opts = pre ++ .version :: post ∧ a = { b with version := true })) := by
  intro opts
  induction opts with
  | nil => intro a0 a h; simp [optionLoop] at h
  | cons x rest ih =>
    intro a0 a h
    by_cases h1 : x = .help
    · subst h1
      simp only [optionLoop, Option.some.injEq, Prod.mk.injEq, and_true] at h
      exact ⟨[], rest, a0, rfl, .inl ⟨rfl, h.symm⟩⟩
    by_cases h2 : x = .version
    · subst h2
      simp only [optionLoop, Option.some.injEq, Prod.mk.injEq, and_true] at h
      exact ⟨[], rest, a0, rfl, .inr ⟨rfl, h.symm⟩⟩
    have hx : ∀ r, optionLoop (x :: r) a0 = (handleOption a0 x).bind (optionLoop r) := by
      intro r
      cases x <;> first | rfl | exact absurd rfl h1 | exact absurd rfl h2
    rw [hx] at h
    cases ho : handleOption a0 x with
    | none => rw [ho] at h; simp at h
    | some a1 =>
      rw [ho] at h
      obtain ⟨pre, post, b, e1, e2⟩ := ih a1 a h
      refine ⟨x :: pre, post, b, by rw [hx, ho]; exact e1, ?_⟩
      rcases e2 with ⟨rfl, e⟩ | ⟨rfl, e⟩
      · exact .inl ⟨rfl, e⟩
      · exact .inr ⟨rfl, e⟩

theorem query_terms {arg : Str} {q : List Str} (h : parseQuery arg = some q) : q ≠ [] := by
  unfold parseQuery at h
  simp only [Option.bind_eq_bind, Option.bind_eq_some_iff] at h
  obtain ⟨r, -, h⟩ := h
  split at h
  · simp at h
  rename_i hz
  intro e
  subst e
  split at h <;> simp_all

theorem queried {opts : List Option'} {a : Args} (ho : optionLoop opts createNewOpt = some (a, false)) {s : Str} (h : .query s ∈ opts) :
    ∃ arg q, .query arg ∈ opts ∧ parseQuery arg = some q ∧ a.query = some q := by
  rcases (C58_words opts a ho).2.2.2.2.2 with ⟨x, ⟨pre, post, e, -⟩, arg, q, rfl, hq, e'⟩ | ⟨hn, -⟩
  · exact ⟨arg, q, by rw [e]; simp, hq, e'⟩
  · exact absurd ⟨s, rfl⟩ (hn _ h)

/-- the program after the command line was accepted -/
def afterOptions (m : Machine) (a : Args) (fuel : Nat) : Option (Res Outcome) :=
  match discoverConfigFile m.db { m.surroundings with optF := a.f } false with
  | none => some .ub
  | some none => some (.fail 1)
  | some (some file) =>
    match loadDesigns m a file fuel with
    | none => none
    | some (.fail _) => some (.fail 1)
    | some .ub => some .ub
    | some (.ok (ds, ps, definedIn)) =>
      match mainTask m a file ds ps definedIn fuel with
      | none => none
      | some (.fail _) => some (.fail 1)
      | some .ub => some .ub
      | some (.ok text) => some (.ok (.output a.outfile text))

theorem whole_accepted (m : Machine) (c : CommandLine) (fuel : Nat) (hfirst : c.first ≠ some (lit "-?")) {a : Args}
    (hopts : optionLoop c.options createNewOpt = some (a, false)) (hfiles : UsableFiles m.canRead m.canWrite c.files) :
    wholeProgram m c fuel = afterOptions m { a with infile := named c.files 0, outfile := named c.files 1 } fuel := by
  obtain ⟨f1, f2, f3⟩ := hfiles
  have hp := (C59_files m.canRead m.canWrite c.first hfirst c.options a hopts c.files _).2 ⟨f1, f2, f3, rfl⟩
  obtain ⟨-, -, -, -, -, hh, hv⟩ := C58_switches c.options a hopts
  unfold wholeProgram afterOptions
  rw [hp]
  simp only [hh, hv, Bool.false_eq_true, if_false]
  rfl

theorem whole_files (m : Machine) (c : CommandLine) (fuel : Nat) (hfirst : c.first ≠ some (lit "-?")) {a : Args}
    (hopts : optionLoop c.options createNewOpt = some (a, false)) (hfiles : ¬ UsableFiles m.canRead m.canWrite c.files) :
    wholeProgram m c fuel = some (.fail 1) := by
  have hp : processCommandline m.canRead m.canWrite c.first c.options c.files = none := by
    cases h : processCommandline m.canRead m.canWrite c.first c.options c.files with
    | none => rfl
    | some a' =>
      obtain ⟨f1, f2, f3, -⟩ := (C59_files m.canRead m.canWrite c.first hfirst c.options a hopts c.files a').1 h
      exact absurd ⟨f1, f2, f3⟩ hfiles
  unfold wholeProgram
  rw [hp]

theorem whole_refused (m : Machine) (c : CommandLine) (fuel : Nat) (hfirst : c.first ≠ some (lit "-?"))
    (hopts : optionLoop c.options createNewOpt = none) : wholeProgram m c fuel = some (.fail 1) := by
  unfold wholeProgram processCommandline
  rw [if_neg hfirst, hopts]
  rfl

theorem afterOptions_output (m : Machine) (a : Args) (fuel : Nat) {o : Outcome} (h : afterOptions m a fuel = some (.ok o)) :
    ∃ text, o = .output a.outfile text := by
  unfold afterOptions at h
  repeat' split at h
  all_goals simp at h
  exact ⟨_, h.symm⟩

/-- C69: The help text is printed exactly if `-?` is the first argument or an option for help comes up before any error; the version
likewise.  Nothing else matters: neither the other arguments, the configuration files, the environment nor the input. -/
theorem C69_help (m : Machine) (c : CommandLine) (fuel : Nat) :
    (wholeProgram m c fuel = some (.ok .usage) ↔
      c.first = some (lit "-?") ∨ ∃ pre post b, c.options = pre ++ .help :: post ∧ optionLoop pre createNewOpt = some (b, false)) ∧
    (wholeProgram m c fuel = some (.ok .version) ↔
      c.first ≠ some (lit "-?") ∧ ∃ pre post b, c.options = pre ++ .version :: post ∧ optionLoop pre createNewOpt = some (b, false)) := by
  by_cases hfirst : c.first = some (lit "-?")
  · have : wholeProgram m c fuel = some (.ok .usage) := by
      unfold wholeProgram processCommandline
      rw [if_pos hfirst]
      rfl
    rw [this]
    simp [hfirst]
  · have hearly : ∀ (pre post : List Option') (b : Args), optionLoop pre createNewOpt = some (b, false) →
        (c.options = pre ++ .help :: post → wholeProgram m c fuel = some (.ok .usage)) ∧
        (c.options = pre ++ .version :: post → wholeProgram m c fuel = some (.ok .version)) := by
      intro pre post b hb
      obtain ⟨h1, h2⟩ := C58_help m.canRead m.canWrite c.first hfirst pre b hb post c.files
      obtain ⟨-, -, -, -, -, hh, hv⟩ := C58_switches pre b hb
      constructor
      · intro e
        unfold wholeProgram
        rw [e, h1]
        rfl
      · intro e
        unfold wholeProgram
        rw [e, h2]
        simp [hh]
    have hother : (∀ pre post b, optionLoop pre createNewOpt = some (b, false) → c.options ≠ pre ++ .help :: post ∧ c.options ≠ pre ++ .version :: post) →
        wholeProgram m c fuel ≠ some (.ok .usage) ∧ wholeProgram m c fuel ≠ some (.ok .version) := by
      intro hno
      cases ho : optionLoop c.options createNewOpt with
      | none => rw [whole_refused m c fuel hfirst ho]; simp
      | some q =>
        obtain ⟨a, done⟩ := q
        cases done with
        | true =>
          obtain ⟨pre, post, b, e1, e2⟩ := optionLoop_early _ _ _ ho
          rcases e2 with ⟨e, -⟩ | ⟨e, -⟩
          · exact absurd e (hno pre post b e1).1
          · exact absurd e (hno pre post b e1).2
        | false =>
          by_cases hu : UsableFiles m.canRead m.canWrite c.files
          · rw [whole_accepted m c fuel hfirst ho hu]
            constructor <;>
            · intro h
              obtain ⟨t, e⟩ := afterOptions_output _ _ _ h
              simp at e
          · rw [whole_files m c fuel hfirst ho hu]; simp
    constructor
    · constructor
      · intro h
        refine .inr ?_
        apply Classical.byContradiction
        intro hn
        have := hother (fun pre post b hb => ?_)
        · exact this.1 h
        · refine ⟨fun e => hn ⟨pre, post, b, e, hb⟩, fun e => ?_⟩
          have := (hearly pre post b hb).2 e
          rw [this] at h
          simp at h
      · rintro (h | ⟨pre, post, b, e, hb⟩)
        · exact absurd h hfirst
        · exact (hearly pre post b hb).1 e
    · constructor
      · intro h
        refine ⟨hfirst, ?_⟩
        apply Classical.byContradiction
        intro hn
        have := hother (fun pre post b hb => ?_)
        · exact this.2 h
        · refine ⟨fun e => ?_, fun e => hn ⟨pre, post, b, e, hb⟩⟩
          have := (hearly pre post b hb).1 e
          rw [this] at h
          simp at h
      · rintro ⟨-, pre, post, b, e, hb⟩
        exact (hearly pre post b hb).2 e

/-- C69: The program ends with an error if an option is wrong, files on the command line cannot be used, or no configuration file is
found (even if none is needed, see `C69_create_disagrees`). -/
theorem C69_refused (m : Machine) (c : CommandLine) (fuel : Nat) (hfirst : c.first ≠ some (lit "-?")) :
    (optionLoop c.options createNewOpt = none → wholeProgram m c fuel = some (.fail 1)) ∧
    ∀ a, optionLoop c.options createNewOpt = some (a, false) →
      (¬ UsableFiles m.canRead m.canWrite c.files → wholeProgram m c fuel = some (.fail 1)) ∧
      (discoverConfigFile m.db { m.surroundings with optF := a.f } false = some none → wholeProgram m c fuel = some (.fail 1)) := by
  refine ⟨whole_refused m c fuel hfirst, fun a ho => ⟨whole_files m c fuel hfirst ho, fun hd => ?_⟩⟩
  by_cases hu : UsableFiles m.canRead m.canWrite c.files
  · rw [whole_accepted m c fuel hfirst ho hu]
    unfold afterOptions
    simp only [hd]
  · exact whole_files m c fuel hfirst ho hu

/-- C69: What is printed goes to the file that is the second argument, or to standard output if there is none or it is a hyphen. -/
theorem C69_destination (m : Machine) (c : CommandLine) (fuel : Nat) (file : Option Str) (text : Str)
    (h : wholeProgram m c fuel = some (.ok (.output file text))) :
    UsableFiles m.canRead m.canWrite c.files ∧ file = named c.files 1 := by
  have hfirst : c.first ≠ some (lit "-?") := by
    intro e
    rw [(C69_help m c fuel).1.2 (.inl e)] at h
    simp at h
  cases ho : optionLoop c.options createNewOpt with
  | none => rw [whole_refused m c fuel hfirst ho] at h; simp at h
  | some q =>
    obtain ⟨a, done⟩ := q
    cases done with
    | true =>
      obtain ⟨pre, post, b, e1, e2⟩ := optionLoop_early _ _ _ ho
      rcases e2 with ⟨e, -⟩ | ⟨e, -⟩
      · rw [(C69_help m c fuel).1.2 (.inr ⟨_, _, _, e, e1⟩)] at h; simp at h
      · rw [(C69_help m c fuel).2.2 ⟨hfirst, _, _, _, e, e1⟩] at h; simp at h
    | false =>
      by_cases hu : UsableFiles m.canRead m.canWrite c.files
      · rw [whole_accepted m c fuel hfirst ho hu] at h
        obtain ⟨t, e⟩ := afterOptions_output _ _ _ h
        simp only [Outcome.output.injEq] at e
        exact ⟨hu, e.1⟩
      · rw [whole_files m c fuel hfirst ho hu] at h; simp at h

/-- C69: Of the input, only the file that is the first argument matters (standard input if there is none or it is a hyphen); when
designs are listed or tags are queried, no input matters at all. -/
theorem C69_input (m : Machine) (c : CommandLine) (fuel : Nat) (other : Option Str → List Str)
    (h : other (named c.files 0) = m.input (named c.files 0) ∨ .list ∈ c.options ∨ ∃ s, .query s ∈ c.options) :
    wholeProgram { m with input := other } c fuel = wholeProgram m c fuel := by
  by_cases hfirst : c.first = some (lit "-?")
  · rw [(C69_help m c fuel).1.2 (.inl hfirst), (C69_help { m with input := other } c fuel).1.2 (.inl hfirst)]
  cases ho : optionLoop c.options createNewOpt with
  | none => rw [whole_refused m c fuel hfirst ho, whole_refused { m with input := other } c fuel hfirst ho]
  | some q =>
    obtain ⟨a, done⟩ := q
    cases done with
    | true =>
      obtain ⟨pre, post, b, e1, e2⟩ := optionLoop_early _ _ _ ho
      rcases e2 with ⟨e, -⟩ | ⟨e, -⟩
      · rw [(C69_help m c fuel).1.2 (.inr ⟨_, _, _, e, e1⟩), (C69_help { m with input := other } c fuel).1.2 (.inr ⟨_, _, _, e, e1⟩)]
      · rw [(C69_help m c fuel).2.2 ⟨hfirst, _, _, _, e, e1⟩, (C69_help { m with input := other } c fuel).2.2 ⟨hfirst, _, _, _, e, e1⟩]
    | false =>
      by_cases hu : UsableFiles m.canRead m.canWrite c.files
      · rw [whole_accepted m c fuel hfirst ho hu, whole_accepted { m with input := other } c fuel hfirst ho hu]
        unfold afterOptions
        have hl : ∀ file, loadDesigns { m with input := other } { a with infile := named c.files 0, outfile := named c.files 1 } file fuel =
            loadDesigns m { a with infile := named c.files 0, outfile := named c.files 1 } file fuel := fun _ => rfl
        have ht : ∀ file ds ps di, mainTask { m with input := other } { a with infile := named c.files 0, outfile := named c.files 1 } file ds ps di fuel =
            mainTask m { a with infile := named c.files 0, outfile := named c.files 1 } file ds ps di fuel := by
          intro file ds ps di
          unfold mainTask
          simp only
          by_cases hal : a.l = true
          · rw [if_pos hal, if_pos hal]
          rw [if_neg hal, if_neg hal]
          by_cases haq : a.query.getD [] ≠ []
          · rw [if_pos haq, if_pos haq]
          rw [if_neg haq, if_neg haq]
          rcases h with h | h | ⟨s, h⟩
          · rw [h]; rfl
          · exact absurd ((C58_switches c.options a ho).1.2 h) hal
          · exfalso
            apply haq
            obtain ⟨arg, q, -, hq, e⟩ := queried ho h
            rw [e]
            intro e'
            exact absurd e' (query_terms hq)
        simp only [hl, ht]
      · rw [whole_files m c fuel hfirst ho hu, whole_files { m with input := other } c fuel hfirst ho hu]

/-- C69: The bounds that the model puts on the number of rounds of the loops do not matter: if the program ends within them, the
result is the same for larger ones. -/
theorem C69_bounds (m : Machine) (c : CommandLine) {fuel fuel' : Nat} (hf : fuel ≤ fuel') {r : Res Outcome}
    (h : wholeProgram m c fuel = some r) : wholeProgram m c fuel' = some r := by
  unfold wholeProgram at h ⊢
  split at h
  · exact h
  · rename_i a ha
    split at h
    · rename_i hh; rw [if_pos hh]; exact h
    rename_i hh
    rw [if_neg hh]
    split at h
    · rename_i hv; rw [if_pos hv]; exact h
    rename_i hv
    rw [if_neg hv]
    split at h
    · exact h
    · exact h
    rename_i file hd
    cases hl : loadDesigns m a file fuel with
    | none => rw [hl] at h; simp at h
    | some x =>
      rw [hl] at h
      rw [loadDesigns_more m a file hf hl]
      cases x with
      | ok x =>
        obtain ⟨ds, ps, di⟩ := x
        simp only at h ⊢
        cases ht : mainTask m a file ds ps di fuel with
        | none => rw [ht] at h; simp at h
        | some y =>
          rw [ht] at h
          rw [mainTask_more m a file ds ps di hf ht]
          exact h
      | fail n => exact h
      | ub => exact h

/-! ## designs -/

/-- every design comes from one of the files -/
theorem all_parsed (env : ParseEnv) (contents : Bxs → Option (List Decl)) (fuel : Nat) (file : Bxs) (ds : List DesignDef) (ps : List Bxs)
    (h : parseConfigFiles env contents fuel file = some (.ok (ds, ps))) :
    ∀ d ∈ ds, ∃ f decls known ds' ps', f ∈ file :: ps ∧ contents f = some decls ∧
      parseConfig { env with childConfigs := known } decls [] = .ok (ds', ps') ∧ d ∈ ds' := by
  obtain ⟨vs, h1, h2, h3, -, -⟩ := C33_merged env contents fuel file _ _ h
  intro d hd
  have hm : d ∈ vs.flatMap (·.designs) := h3.order.mem hd
  obtain ⟨v, hv, hdv⟩ := List.mem_flatMap.1 hm
  obtain ⟨i, hi⟩ := List.getElem?_of_mem hv
  obtain ⟨known, -, hp⟩ := h2 i v hi
  unfold parseConfigFile at hp
  split at hp
  · simp only [Res.ok.injEq, Prod.mk.injEq] at hp
    rw [← hp.1] at hdv
    simp at hdv
  · rename_i decls hc
    split at hp
    · simp at hp
    · simp only [Res.ok.injEq, Prod.mk.injEq] at hp
      rw [← hp.1] at hdv
      simp at hdv
    · rename_i r hr
      simp only [Res.ok.injEq] at hp
      subst hp
      exact ⟨v.file, decls, known, _, _, by rw [← h1]; exact List.mem_map_of_mem hv, hc, hr, hdv⟩

theorem colour_setting {opts : List Option'} {a : Args} (ho : optionLoop opts createNewOpt = some (a, false)) (t : Bool) :
    checkColorSupport a.color t = colours opts t := by
  rw [(C58_last opts a ho).2.2.2.2]
  unfold colours
  have key : ∀ (opts : List Option') (n : Nat),
      checkColorSupport (latest (fun x => match x with | .color => some 2 | .noColor => some 0 | _ => none) opts n) t =
        latest (fun x => match x with | .color => some true | .noColor => some false | _ => none) opts (checkColorSupport n t) := by
    intro opts
    induction opts with
    | nil => intro n; rfl
    | cons x rest ih =>
      intro n
      rw [latest_cons, latest_cons, ih]
      cases x <;> rfl
  exact key opts 1

/-- the configuration file, and the designs in it and its parents -/
structure Loaded (m : Machine) (a : Args) (fuel : Nat) (file : Bxs) (d : DesignDef) (ds : List DesignDef) (ps : List Bxs) : Prop where
  found : discoverConfigFile m.db { m.surroundings with optF := a.f } false = some (some file)
  designs : parseConfigFiles (parseEnv m a) m.contents fuel file = some (.ok (d :: ds, ps))

/-- C69: Every design that is used comes from the configuration file or one of its parents; if a design was named on the command
line, it has that name (or alias), and no other design is used. -/
theorem C69_chosen (m : Machine) (c : CommandLine) (fuel : Nat) {a : Args} (hopts : optionLoop c.options createNewOpt = some (a, false))
    {file : Bxs} {d : DesignDef} {ds : List DesignDef} {ps : List Bxs} (h : Loaded m a fuel file d ds ps)
    (name : Str) (hn : latest (fun x => match x with | .design s => some (some s) | _ => none) c.options none = some name) :
    ∀ e ∈ d :: ds, Called e name := by
  intro e he
  obtain ⟨f, decls, known, ds', ps', -, -, h2, h3⟩ := all_parsed _ _ _ _ _ _ h.designs e he
  refine (C56_one _ _ _ _ _ h2).2 name ?_ e h3
  show a.design = some name
  rw [(C58_last c.options a hopts).2.1]
  exact hn

theorem loaded_good (m : Machine) (hdb : Sane m.db) (fuel : Nat) {a : Args}
    {file : Bxs} {d : DesignDef} {ds : List DesignDef} {ps : List Bxs} (h : Loaded m a fuel file d ds ps)
    (hesc : ∀ f decls, m.contents f = some decls → WellEscaped decls) : ∀ e ∈ d :: ds, GoodDesign m.db e.core := by
  intro e he
  obtain ⟨f, decls, known, ds', ps', -, h1, h2, h3⟩ := all_parsed _ _ _ _ _ _ h.designs e he
  exact C28_good { parseEnv m a with childConfigs := known } hdb decls (hesc f decls h1) _ _ _ h2 e h3

/-- what the main part of the program does once the designs are known -/
theorem whole_loaded (m : Machine) (c : CommandLine) (fuel : Nat) (hfirst : c.first ≠ some (lit "-?")) {a : Args}
    (hopts : optionLoop c.options createNewOpt = some (a, false)) (hfiles : UsableFiles m.canRead m.canWrite c.files)
    (hcr : ∀ s, .create s ∉ c.options)
    {file : Bxs} {d : DesignDef} {ds : List DesignDef} {ps : List Bxs} (h : Loaded m a fuel file d ds ps) :
    ∃ f before after ds' ps', file :: ps = before ++ f :: after ∧ parseConfigFile (parseEnv m a) m.contents f [] = .ok (d :: ds', ps') ∧
      (∀ g ∈ before, ∃ qs, parseConfigFile (parseEnv m a) m.contents g [] = .ok ([], qs)) ∧
      wholeProgram m c fuel =
        match mainTask m { a with infile := named c.files 0, outfile := named c.files 1 } file (d :: ds) ps f fuel with
        | none => none
        | some (.fail _) => some (.fail 1)
        | some .ub => some .ub
        | some (.ok text) => some (.ok (.output (named c.files 1) text)) := by
  obtain ⟨f, before, after, ds', ps', e1, e2, e3, e4⟩ := definingFile_first _ _ _ _ _ _ _ h.designs
  refine ⟨f, before, after, ds', ps', e1, e3, e4, ?_⟩
  have hc : a.cld = none := by
    rw [(C58_last c.options a hopts).1]
    have : ∀ (l : List Option') , (∀ s, .create s ∉ l) → latest (fun x => match x with | .create s => some (some s) | _ => none) l (none : Option Str) = none := by
      intro l
      induction l with
      | nil => intro _; rfl
      | cons x r ih =>
        intro hx
        rw [latest_cons]
        cases x
        case create s => exact absurd List.mem_cons_self (hx s)
        all_goals exact ih (fun s hs => hx s (List.mem_cons_of_mem _ hs))
    exact this _ hcr
  rw [whole_accepted m c fuel hfirst hopts hfiles]
  unfold afterOptions
  simp only [h.found]
  have hl : loadDesigns m { a with infile := named c.files 0, outfile := named c.files 1 } file fuel = some (.ok (d :: ds, ps, f)) := by
    unfold loadDesigns
    simp only [hc]
    show Option.map _ (parseConfigFiles (parseEnv m a) m.contents fuel file) = _
    rw [h.designs]
    show some (Res.bind (Res.get (definingFile (parseEnv m a) m.contents (file :: ps))) (fun f => Res.ok (d :: ds, ps, f))) = _
    rw [e2]
    rfl
  rw [hl]

/-- C69: With `-l`, the designs are listed, or the chosen one is described: the printed text is the one specified in C39 and C65, with
colours according to the options and the terminal, and naming the first file with a design as the one it is defined in. -/
theorem C69_listing (m : Machine) (c : CommandLine) (fuel : Nat) (hfirst : c.first ≠ some (lit "-?")) {a : Args}
    (hopts : optionLoop c.options createNewOpt = some (a, false)) (hfiles : UsableFiles m.canRead m.canWrite c.files)
    (hlist : .list ∈ c.options) (hcr : ∀ s, .create s ∉ c.options)
    {file : Bxs} {d : DesignDef} {ds : List DesignDef} {ps : List Bxs} (h : Loaded m a fuel file d ds ps) :
    ∃ f before after ds' ps', file :: ps = before ++ f :: after ∧ parseConfigFile (parseEnv m a) m.contents f [] = .ok (d :: ds', ps') ∧
      (∀ g ∈ before, ∃ qs, parseConfigFile (parseEnv m a) m.contents g [] = .ok ([], qs)) ∧
      ∀ text,
        ((∃ s, .design s ∈ c.options) →
          listDesignsOrOne m.db (colours c.options m.terminalColors) a.opt.eol a.qundoc (some (d, f)) file ps (d :: ds) = some text →
          wholeProgram m c fuel = some (.ok (.output (named c.files 1) text))) ∧
        ((∀ s, .design s ∉ c.options) →
          listDesignsOrOne m.db (colours c.options m.terminalColors) a.opt.eol a.qundoc none file ps (d :: ds) = some text →
          wholeProgram m c fuel = some (.ok (.output (named c.files 1) text))) := by
  obtain ⟨f, before, after, ds', ps', e1, e2, e3, e4⟩ := whole_loaded m c fuel hfirst hopts hfiles hcr h
  refine ⟨f, before, after, ds', ps', e1, e2, e3, fun text => ?_⟩
  obtain ⟨s1, -, -, s4, -⟩ := C58_switches c.options a hopts
  rw [e4]
  unfold mainTask
  simp only [s1.2 hlist, if_true, colour_setting hopts]
  constructor
  · rintro ⟨s, hs⟩ ht
    rw [if_pos (s4.2 ⟨s, .inl hs⟩), ht]
    rfl
  · intro hs ht
    rw [if_neg (fun hu => ?_), ht]
    · rfl
    · obtain ⟨s, hs' | hs'⟩ := s4.1 hu
      · exact hs s hs'
      · exact hcr s hs'

/-- C69: With `-q`, the names and aliases of exactly those designs are printed whose tags match the last query on the command line, in
the order of their names. -/
theorem C69_query (m : Machine) (c : CommandLine) (fuel : Nat) (hfirst : c.first ≠ some (lit "-?")) {a : Args}
    (hopts : optionLoop c.options createNewOpt = some (a, false)) (hfiles : UsableFiles m.canRead m.canWrite c.files)
    (hlist : .list ∉ c.options) (hcr : ∀ s, .create s ∉ c.options)
    {file : Bxs} {d : DesignDef} {ds : List DesignDef} {ps : List Bxs} (h : Loaded m a fuel file d ds ps)
    (pre post : List Option') (arg : Str) (hq : c.options = pre ++ .query arg :: post) (hlast : ∀ s, .query s ∉ post) :
    ∃ (found : List DesignDef) (p : DesignDef → Bool), found.Perm ((d :: ds).filter p) ∧
      found.Pairwise (fun a b => NameLe a.name b.name) ∧
      (∀ e, p e = true ↔ (∀ t ∈ terms arg, ∀ u, Minus t u → ¬ Carries e.tags u) ∧ (∀ t ∈ terms arg, ∀ u, Plus t u → Carries e.tags u) ∧
        ((∃ t ∈ terms arg, ∃ u, Plus t u) ∨ everything ∈ terms arg ∨ (∀ t ∈ terms arg, ∃ u, Minus t u) ∨
          ∃ t ∈ terms arg, Unsigned t ∧ Carries e.tags t)) ∧
      wholeProgram m c fuel = some (.ok (.output (named c.files 1)
        (found.map (fun e => e.name ++ a.opt.eol ++ (e.aliases.map (fun x => x ++ lit " (alias)" ++ a.opt.eol)).flatten)).flatten)) := by
  obtain ⟨f, before, after, ds', ps', e1, e2, e3, e4⟩ := whole_loaded m c fuel hfirst hopts hfiles hcr h
  obtain ⟨s1, -, -, s4, -⟩ := C58_switches c.options a hopts
  obtain ⟨q, hp, ha⟩ : ∃ q, parseQuery arg = some q ∧ a.query = some q := by
    rcases (C58_words c.options a hopts).2.2.2.2.2 with ⟨x, ⟨pre', post', e, -, hno⟩, arg', q, rfl, hq', e'⟩ | ⟨hn, -⟩
    · have hpp : pre = pre' ∧ .query arg :: post = (.query arg' :: post' : List Option') := by
        rw [hq] at e
        have hlen : post.length = post'.length := by
          rcases Nat.lt_trichotomy post.length post'.length with hlt | heq | hgt
          · exfalso
            have h1 : (.query arg : Option') ∈ post' := by
              rcases List.append_eq_append_iff.1 e with ⟨l, e1, e2⟩ | ⟨l, e1, e2⟩
              · cases l with
                | nil => simp at e2; rw [e2.2] at hlt; omega
                | cons y l => simp at e2; rw [e2.2] at hlt; simp at hlt; omega
              · cases l with
                | nil => simp at e2; rw [e2.2] at hlt; omega
                | cons y l => simp at e2; rw [e2.2]; simp
            exact hno _ h1 ⟨arg, rfl⟩
          · exact heq
          · exfalso
            have h1 : (.query arg' : Option') ∈ post := by
              rcases List.append_eq_append_iff.1 e with ⟨l, e1, e2⟩ | ⟨l, e1, e2⟩
              · cases l with
                | nil => simp at e2; rw [e2.2] at hgt; omega
                | cons y l => simp at e2; rw [e2.2]; simp
              · cases l with
                | nil => simp at e2; rw [e2.2] at hgt; omega
                | cons y l => simp at e2; rw [e2.2] at hgt; simp at hgt; omega
            exact hlast _ h1
        exact List.append_inj' e (by simp [hlen])
      have := hpp.2
      simp only [List.cons.injEq, Option'.query.injEq] at this
      rw [this.1]
      exact ⟨q, hq', e'⟩
    · exact absurd ⟨arg, rfl⟩ (hn (.query arg) (by rw [hq]; simp))
  obtain ⟨found, g1, g2, g3⟩ := C31_printed a.opt.eol (d :: ds) q
  refine ⟨found, fun e => filterByTag q e.tags, g1, g2, fun e => C31_selected arg hp e.tags, ?_⟩
  rw [e4, ← g3]
  unfold mainTask
  simp only [ha, Option.getD_some]
  rw [if_neg (fun hl => hlist (s1.1 hl)), if_pos (query_terms hp)]

/-! ## drawing -/

theorem printed_rows (db : CharDb) (color : Bool) : ∀ (out : List (Bxs × Str)),
    (∀ (t : Nat) p, out[t]? = some p → ∃ s v, Text s v ∧ fromUnicode db s = some p.1) →
    ∃ text, renderBox color out = .ok text ∧ PrintedText db color out text := by
  intro out
  induction out with
  | nil => intro _; exact ⟨[], rfl, .nil⟩
  | cons p more ih =>
    intro h
    obtain ⟨s, v, h1, h2⟩ := h 0 p rfl
    obtain ⟨text, e1, e2⟩ := ih (fun t q hq => h (t + 1) q hq)
    have ho := C03_output db h1 h2
    obtain ⟨b, e⟩ := p
    refine ⟨(if color then s else v) ++ e ++ text, ?_, .cons ⟨s, v, h1, h2, rfl⟩ e2⟩
    rw [renderBox]
    have : b.toOutput color = some (if color = true then s else v) := by
      cases color
      · exact ho.2
      · exact ho.1
    rw [this, e1]
    rfl

theorem drawing_text (db : CharDb) (hdb : Sane db) (opt : Opt) (hr : opt.r = false) (ht : 1 ≤ opt.tabstop) (d : Design)
    (hd : GoodDesign db d) (junk : Nat) (pieces : List Str) (hp : ∀ s ∈ pieces, Readable db opt.tabstop s) (hne : pieces ≠ [])
    (color : Bool) (fuel : Nat) {r : Res (List (Bxs × Str))} (h : drawOnce db opt d [] junk pieces fuel = some r) :
    ∃ out text, r = .ok out ∧ Drawing db opt d fuel pieces out ∧ renderBox color out = .ok text ∧ PrintedText db color out text := by
  obtain ⟨j, d', box, us, ls, out, above, below, lp, rp, s, e, rfl, a2, a3, a4, a5, a6, a7, a8, a9, a10, a11, a12, a13, a14, a15,
    a16, a17, a18⟩ := C16_drawing db hdb opt hr ht _ hd junk pieces hp hne fuel h
  have hrows : ∀ (t : Nat) p, out[t]? = some p → ∃ s v, Text s v ∧ fromUnicode db s = some p.1 := by
    intro t p hp
    have hlt : t < out.length := by
      rcases Nat.lt_or_ge t out.length with h | h
      · exact h
      · rw [List.getElem?_eq_none h] at hp; simp at hp
    obtain ⟨row, i, mm, r', g1, g2, g3, g4, g5, g6, v, g7⟩ := a18 t hlt
    obtain ⟨r2, v', k1, k2, k3⟩ := trimmed_rtrim db g7 g3
    rw [g4] at k1
    rw [g5] at hp
    simp only [Option.some.injEq] at k1 hp
    subst hp k1
    exact ⟨_, v', k3.1, k2⟩
  obtain ⟨text, t1, t2⟩ := printed_rows db color out hrows
  refine ⟨out, text, rfl, ⟨j, d', box, us, ls, above, below, lp, rp, s, e, a2, a3, a4, a5, a6, a7, a8, a9, a10, a11, a12, a13, a14,
    a15, a16, a17, ?_⟩, t1, t2⟩
  intro t hlt
  obtain ⟨row, i, mm, r', g1, g2, g3, g4, g5, g6, v, g7⟩ := a18 t hlt
  refine ⟨row, i, mm, r', _, g1, g2, g3, g4, g5, fun hc => ?_, fun hc => ?_⟩
  · rw [if_pos (hc.imp g6.2 id)]
  · rw [if_neg (fun hc' => hc'.elim (fun x => hc.1 (g6.1 x)) (fun x => x hc.2))]

theorem run_empty (s : Setup) (hs : s.pieces = []) (opt : Opt) (hm : opt.mend ≠ 1) (d0 : Design) (ds : List Design) (n : Nat) :
    runProgram s opt (d0 :: ds) (n + 1) = some (.ok [.read]) := by
  unfold runProgram mainLoop mainPhase handleInput
  simp only [List.getElem?_cons_zero, List.set_cons_zero]
  rw [if_pos (by omega), hs]
  rfl

/-- C69: Drawing a box with a design from a configuration file, from the command line to the printed text: the text consists of the
lines that `C16_drawing` specifies for the design, the options and the input. -/
theorem C69_drawing (m : Machine) (hdb : Sane m.db) (c : CommandLine) (fuel : Nat) (hfirst : c.first ≠ some (lit "-?")) {a : Args}
    (hopts : optionLoop c.options createNewOpt = some (a, false)) (hfiles : UsableFiles m.canRead m.canWrite c.files)
    (hlist : .list ∉ c.options) (hq : ∀ s, .query s ∉ c.options) (hrm : .remove ∉ c.options) (hmend : .mend ∉ c.options)
    (hcr : ∀ s, .create s ∉ c.options)
    {file : Bxs} {d : DesignDef} {ds : List DesignDef} {ps : List Bxs} (h : Loaded m a fuel file d ds ps)
    (hesc : ∀ f decls, m.contents f = some decls → WellEscaped decls) (hrules : d.reprules = [])
    (hp : ∀ s ∈ m.input (named c.files 0), Readable m.db a.opt.tabstop s) (hne : m.input (named c.files 0) ≠ [])
    {r : Res Outcome} (hrun : wholeProgram m c fuel = some r) :
    ∃ out text, r = .ok (.output (named c.files 1) text) ∧
      Drawing m.db a.opt (prepareDesign a.opt d.core) fuel (m.input (named c.files 0)) out ∧
      PrintedText m.db (colours c.options m.terminalColors) out text := by
  obtain ⟨f, before, after, ds', ps', e1, e2, e3, e4⟩ := whole_loaded m c fuel hfirst hopts hfiles hcr h
  obtain ⟨s1, s2, s3, s4, -⟩ := C58_switches c.options a hopts
  have hqn : a.query = none := by
    rcases (C58_words c.options a hopts).2.2.2.2.2 with ⟨x, ⟨pre', post', e, -, hno⟩, arg', q, rfl, hq', e'⟩ | ⟨hn, e⟩
    · exact absurd (by rw [e]; simp) (hq arg')
    · exact e
  have hmn : a.opt.mend = 0 := by rw [s3, if_neg hmend]
  have hrn : a.opt.r = false := by
    cases hb : a.opt.r with
    | false => rfl
    | true => exact absurd (s2.1 hb) (by simp [hrm, hmend])
  have hgood := (C20_adjusted_design m.db a.opt _ (loaded_good m hdb fuel h hesc d List.mem_cons_self) {}).1
  have ht := (C37_range c.options a hopts).1
  rw [e4] at hrun
  have htask : mainTask m { a with infile := named c.files 0, outfile := named c.files 1 } file (d :: ds) ps f fuel =
      match fuel with
      | 0 => none
      | _ + 1 => (drawOnce m.db a.opt (prepareDesign a.opt d.core) [] m.junk (m.input (named c.files 0)) fuel).map
          (fun r => (do let out ← r; renderBox (colours c.options m.terminalColors) out : Res Str)) := by
    unfold mainTask
    simp only [hqn, colour_setting hopts]
    rw [if_neg (fun hl => hlist (s1.1 hl)), if_neg (by simp)]
    cases fuel with
    | zero => rfl
    | succ n =>
      simp only [List.map_cons]
      rw [run_draw _ _ hmn hrn]
      simp only [rulesOf, List.getElem?_cons_zero, hrules, List.map_nil]
  rw [htask] at hrun
  cases fuel with
  | zero => simp at hrun
  | succ n =>
    cases hd : drawOnce m.db a.opt (prepareDesign a.opt d.core) [] m.junk (m.input (named c.files 0)) (n + 1) with
    | none => simp [hd] at hrun
    | some x =>
      obtain ⟨out, text, rfl, g2, g3, g4⟩ := drawing_text m.db hdb a.opt hrn ht _ hgood m.junk _ hp hne (colours c.options m.terminalColors) _ hd
      refine ⟨out, text, ?_, g2, g4⟩
      simp only [hd, Option.map_some, Res.ok_bind, g3, Option.some.injEq] at hrun
      exact hrun.symm

/-- C69: Without input, nothing is printed. -/
theorem C69_empty (m : Machine) (c : CommandLine) (fuel : Nat) (hfirst : c.first ≠ some (lit "-?")) {a : Args}
    (hopts : optionLoop c.options createNewOpt = some (a, false)) (hfiles : UsableFiles m.canRead m.canWrite c.files)
    (hlist : .list ∉ c.options) (hq : ∀ s, .query s ∉ c.options) (hcr : ∀ s, .create s ∉ c.options)
    {file : Bxs} {d : DesignDef} {ds : List DesignDef} {ps : List Bxs} (h : Loaded m a fuel file d ds ps)
    (he : m.input (named c.files 0) = []) (hfuel : fuel ≠ 0) :
    wholeProgram m c fuel = some (.ok (.output (named c.files 1) [])) := by
  obtain ⟨f, before, after, ds', ps', e1, e2, e3, e4⟩ := whole_loaded m c fuel hfirst hopts hfiles hcr h
  obtain ⟨s1, s2, s3, s4, -⟩ := C58_switches c.options a hopts
  have hqn : a.query = none := by
    rcases (C58_words c.options a hopts).2.2.2.2.2 with ⟨x, ⟨pre', post', e, -, hno⟩, arg', q, rfl, hq', e'⟩ | ⟨hn, e⟩
    · exact absurd (by rw [e]; simp) (hq arg')
    · exact e
  obtain ⟨n, rfl⟩ := Nat.exists_eq_succ_of_ne_zero hfuel
  rw [e4]
  unfold mainTask
  simp only [hqn]
  rw [if_neg (fun hl => hlist (s1.1 hl)), if_neg (by simp), List.map_cons, run_empty _ he _ (by rw [s3]; split <;> decide)]
  rfl

/-- C69: Drawing with a design that was created with `-c`, from the command line to the printed text (C67): the designs in the
configuration file do not matter, but there must be a file (see `C69_create_disagrees`). -/
theorem C69_created (m : Machine) (hdb : Sane m.db) (c : CommandLine) (fuel : Nat) (hfirst : c.first ≠ some (lit "-?")) {a : Args}
    (hopts : optionLoop c.options createNewOpt = some (a, false)) (hfiles : UsableFiles m.canRead m.canWrite c.files)
    (hlist : .list ∉ c.options) (hq : ∀ s, .query s ∉ c.options) (hrm : .remove ∉ c.options) (hmend : .mend ∉ c.options)
    (hk : a.opt.tabexp ≠ 'k') (hu : a.opt.tabexp ≠ 'u')
    (hal : ∀ s, .align s ∉ c.options) (hsz : ∀ s, .size s ∉ c.options) (hpd : ∀ s, .padding s ∉ c.options)
    {file : Bxs} (hfound : discoverConfigFile m.db { m.surroundings with optF := a.f } false = some (some file))
    {cld v : Str} (hcld : latest (fun x => match x with | .create s => some (some s) | _ => none) c.options none = some cld)
    (ht : Text cld v) (hok : ∀ x ∈ v, ¬ Forbidden m.db x) (hw : 0 < columns m.db v) (hw' : columns m.db v ≤ 16382)
    (hbytes : bytes cld ≤ columns m.db v) (hv : ∃ x ∈ v, ¬ Blank m.db x ∧ width m.db x ≠ 0)
    (hp : ∀ s ∈ m.input (named c.files 0), Readable m.db a.opt.tabstop s) (hne : m.input (named c.files 0) ≠ [])
    {r : Res Outcome} (hrun : wholeProgram m c fuel = some r) :
    ∃ out text, r = .ok (.output (named c.files 1) text) ∧
      Commented m.db a.opt cld v (m.input (named c.files 0)) out ∧
      PrintedText m.db (colours c.options m.terminalColors) out text := by
  obtain ⟨s1, s2, s3, s4, -⟩ := C58_switches c.options a hopts
  obtain ⟨w1, w2, w3, w4, w5, w6⟩ := C58_words c.options a hopts
  have hqn : a.query = none := by
    rcases w6 with ⟨x, ⟨pre', post', e, -, hno⟩, arg', q, rfl, hq', e'⟩ | ⟨hn, e⟩
    · exact absurd (by rw [e]; simp) (hq arg')
    · exact e
  have hmn : a.opt.mend = 0 := by rw [s3, if_neg hmend]
  have hrn : a.opt.r = false := by
    cases hb : a.opt.r with
    | false => rfl
    | true => exact absurd (s2.1 hb) (by simp [hrm, hmend])
  have hrw : a.opt.reqwidth = 0 := by
    rcases w4 with ⟨x, ⟨pre', post', e, ⟨s, -, -, rfl, -⟩, -⟩, -⟩ | ⟨-, e⟩
    · exact absurd (by rw [e]; simp) (hsz s)
    · exact e
  have hrh : a.opt.reqheight = 0 := by
    rcases w5 with ⟨x, ⟨pre', post', e, ⟨s, -, -, rfl, -⟩, -⟩, -⟩ | ⟨-, e⟩
    · exact absurd (by rw [e]; simp) (hsz s)
    · exact e
  have hpad : a.opt.padding = ⟨-1, -1, -1, -1⟩ := (unset_options c.options a hopts).1 hpd
  have hjus : a.opt.justify ∉ ['l', 'c', 'r'] := by rw [((unset_options c.options a hopts).2 hal).2.2]; decide
  have hts := (C37_range c.options a hopts).1
  obtain ⟨dd, hb, -, -, -, -, -, -, -, hrules, -⟩ := (C67_design m.db hdb ht).2.2.2 hok hw hw' hbytes
  have hgood := (C20_adjusted_design m.db a.opt _ (C67_good m.db hdb ht hb) {}).1
  rw [whole_accepted m c fuel hfirst hopts hfiles] at hrun
  have hc : a.cld = some cld := by rw [(C58_last c.options a hopts).1]; exact hcld
  unfold afterOptions loadDesigns at hrun
  simp only [hfound, hc, hb, Res.ok_bind] at hrun
  have htask : mainTask m { a with infile := named c.files 0, outfile := named c.files 1 } file [dd] [] (fromAscii (lit "(command line)")) fuel =
      match fuel with
      | 0 => none
      | _ + 1 => (drawOnce m.db a.opt (prepareDesign a.opt dd.core) [] m.junk (m.input (named c.files 0)) fuel).map
          (fun r => (do let out ← r; renderBox (colours c.options m.terminalColors) out : Res Str)) := by
    unfold mainTask
    simp only [hqn, colour_setting hopts]
    rw [if_neg (fun hl => hlist (s1.1 hl)), if_neg (by simp)]
    cases fuel with
    | zero => rfl
    | succ n =>
      simp only [List.map_cons]
      rw [run_draw _ _ hmn hrn]
      simp only [rulesOf, List.getElem?_cons_zero, hrules, List.map_nil]
  have htask' := htask
  rw [show ({ a with infile := named c.files 0, outfile := named c.files 1 } : Args) =
    { opt := a.opt, cld := some cld, color := a.color, design := a.design, byUser := a.byUser, eolOverridden := a.eolOverridden, f := a.f,
      help := a.help, l := a.l, encoding := a.encoding, query := a.query, version := a.version, qundoc := a.qundoc, debug := a.debug,
      areasActive := a.areasActive, infile := named c.files 0, outfile := named c.files 1 } from by rw [← hc]] at htask'
  first | rw [htask] at hrun | rw [htask'] at hrun
  cases fuel with
  | zero => simp at hrun
  | succ n =>
    cases hd : drawOnce m.db a.opt (prepareDesign a.opt dd.core) [] m.junk (m.input (named c.files 0)) (n + 1) with
    | none => simp [hd] at hrun
    | some x =>
      obtain ⟨out, text, rfl, -, g3, g4⟩ := drawing_text m.db hdb a.opt hrn hts _ hgood m.junk _ hp hne (colours c.options m.terminalColors) _ hd
      obtain ⟨out', us, mode, k, e1, e2⟩ := C67_output m.db hdb a.opt hrn hts hk hu hjus hrw hrh hpad ht hv hb m.junk _ hp hne _ hd
      simp only [Res.ok.injEq] at e1
      subst e1
      refine ⟨out, text, ?_, ⟨us, mode, k, e2⟩, g4⟩
      simp only [hd, Option.map_some, Res.ok_bind, g3, Option.some.injEq] at hrun
      exact hrun.symm

/-- C69: Removing a box (`-r` without `-m`): if the program succeeds, then the input was read and analysed, the design is the first one
if one was chosen and otherwise the one that was detected, and the printed text consists of the lines that remain
after removal and their line ends (C23, C68); or there was no input. -/
theorem C69_removing (m : Machine) (c : CommandLine) (fuel : Nat) (hfirst : c.first ≠ some (lit "-?")) {a : Args}
    (hopts : optionLoop c.options createNewOpt = some (a, false)) (hfiles : UsableFiles m.canRead m.canWrite c.files)
    (hlist : .list ∉ c.options) (hq : ∀ s, .query s ∉ c.options) (hrm : .remove ∈ c.options) (hmend : .mend ∉ c.options)
    (hcr : ∀ s, .create s ∉ c.options)
    {file : Bxs} {d : DesignDef} {ds : List DesignDef} {ps : List Bxs} (h : Loaded m a fuel file d ds ps)
    (hne : m.input (named c.files 0) ≠ [])
    {to : Option Str} {text : Str} (hrun : wholeProgram m c fuel = some (.ok (.output to text))) :
    ∃ raw i k cores d' e j out,
      readAllInput m.db { a.opt with mend := -1 } m.junk (m.input (named c.files 0)) = .ok raw ∧
      analyzeInput m.db { a.opt with mend := -1 } (prepareDesign a.opt d.core) ((d.reprules).map m.substitution) raw = .ok i ∧
      detectDesignIfNeeded m.db (adjustSizeAndPadding { a.opt with mend := -1 } (prepareDesign a.opt d.core) i :: ds.map (·.core)) i.lines
        (if a.byUser then some 0 else none) = .ok (k, cores) ∧
      ((∃ s, .design s ∈ c.options) → k = 0) ∧
      cores[k]? = some d' ∧ (d :: ds)[k]? = some e ∧
      handleRemoveBox m.db { a.opt with mend := -1, killblank := killblankDefault a.opt.killblank (prepareDesign a.opt d.core) } d'
        (e.revrules.map m.substitution) i = .ok (j, out) ∧
      text = (out.map (fun p => p.1 ++ p.2)).flatten := by
  obtain ⟨f, before, after, ds', ps', e1, e2, e3, e4⟩ := whole_loaded m c fuel hfirst hopts hfiles hcr h
  obtain ⟨s1, s2, s3, s4, -⟩ := C58_switches c.options a hopts
  have hqn : a.query = none := by
    rcases (C58_words c.options a hopts).2.2.2.2.2 with ⟨x, ⟨pre', post', e, -, hno⟩, arg', q, rfl, hq', e'⟩ | ⟨hn, e⟩
    · exact absurd (by rw [e]; simp) (hq arg')
    · exact e
  have hmn : a.opt.mend = 0 := by rw [s3, if_neg hmend]
  have hrn : a.opt.r = true := s2.2 (.inl hrm)
  rw [e4] at hrun
  unfold mainTask at hrun
  simp only [hqn] at hrun
  rw [if_neg (fun hl => hlist (s1.1 hl)), if_neg (by simp)] at hrun
  cases fuel with
  | zero => simp [runProgram, mainLoop] at hrun
  | succ n =>
  unfold runProgram mainLoop at hrun
  simp only [List.map_cons, List.getElem?_cons_zero, List.set_cons_zero] at hrun
  split at hrun
  · simp at hrun
  · simp at hrun
  · simp at hrun
  rename_i t hev
  simp only [Option.some.injEq, Res.ok.injEq, Outcome.output.injEq] at hrun
  obtain ⟨-, rfl⟩ := hrun
  generalize hset : ({ db := m.db, junk := m.junk, pieces := m.input (named c.files 0), byUser := a.byUser, rules := rulesOf m (·.reprules) (d :: ds), revRules := rulesOf m (·.revrules) (d :: ds), fuel := n + 1 } : Setup) = s at hev
  generalize hw : ({ opt := a.opt, designs := prepareDesign a.opt d.core :: ds.map (·.core), cur := 0 } : World) = w at hev
  cases hph : mainPhase s (prepareDesign a.opt d.core).minwidth (prepareDesign a.opt d.core).minheight w with
  | none => rw [hph] at hev; simp at hev
  | some x =>
  rw [hph] at hev
  cases x with
  | fail k => simp at hev
  | ub => simp at hev
  | ok x =>
  obtain ⟨done, w', ev⟩ := x
  have hmend' := mainPhase_mend hph
  subst hw hset
  simp only [hmn] at hmend'
  simp only at hev
  rw [if_neg (by rw [hmend']; omega)] at hev
  simp only [Option.map_some, Res.ok_bind, Option.some.injEq] at hev
  obtain ⟨d0, i, ev1, g1, g2, g3⟩ := mainPhase_spec hph
  simp only [List.getElem?_cons_zero, Option.some.injEq] at g1
  subst g1
  simp only [hmn, List.set_cons_zero] at g2 g3
  have hopt : ({ a.opt with r := if (0 : Int) = 1 then false else a.opt.r, mend := 0 - 1 } : Opt) = { a.opt with mend := -1 } := by simp
  rw [hopt] at g2 g3
  rcases g2 with ⟨-, rfl, raw, r1, r2⟩ | ⟨h0, -⟩
  · have r2' : analyzeInput m.db { a.opt with mend := -1 } (prepareDesign a.opt d.core) (d.reprules.map m.substitution) raw = .ok i := r2
    have hlines : i.lines ≠ [] := by
      rw [analyze_removing (by exact hrn) r2']
      intro e
      have := readAll_count r1
      rw [e] at this
      exact hne (List.length_eq_zero_iff.1 this.symm)
    rcases g3 with ⟨g, -⟩ | ⟨-, -, g, -⟩ | ⟨-, -, -, cores, k, d', j, out, rfl, q1, q2, q3, -⟩
    · exact absurd g hlines
    · simp [hrn] at g
    · have hlen := detectIfNeeded_length q1
      have hk : k < (d :: ds).length := by
        have : k < cores.length := by
          rcases Nat.lt_or_ge k cores.length with h | h
          · exact h
          · rw [List.getElem?_eq_none h] at q2; simp at q2
        simpa [hlen] using this
      refine ⟨raw, i, k, cores, d', (d :: ds)[k], j, out, r1, r2', q1, ?_, q2, List.getElem?_eq_getElem hk, ?_, ?_⟩
      · rintro ⟨s, hs⟩
        have hu := s4.2 ⟨s, .inl hs⟩
        rw [if_pos hu] at q1
        simp only [detectDesignIfNeeded, Res.ok.injEq, Prod.mk.injEq] at q1
        exact q1.1.symm
      · have : rulesOf m (·.revrules) (d :: ds) k = ((d :: ds)[k].revrules).map m.substitution := by
          unfold rulesOf
          rw [List.getElem?_eq_getElem hk]
        rw [← this]
        exact q3
      · simp only [List.cons_append, List.nil_append, renderEvents, Res.ok_bind, List.append_nil, Res.ok.injEq] at hev
        exact hev.symm
  · omega

/-! ## examples -/

/-- entries of a design -/
def frameItems : List Item :=
  [.sample (lit "x\n"), .shapes [(NW, [lit "+"]), (N, [lit "-"]), (NE, [lit "*"]), (E, [lit "!"]), (SE, [lit "+"]), (S, [lit "="]), (SW, [lit "+"]), (W, [lit "|"])],
    .elastic [N, E, S, W], .tags [lit "plain"]]

/-- a machine with a configuration file and some input -/
def sampleMachine : Machine :=
  { db := sampleDb, surroundings := sampleDisk, input := fun f => if f = some (lit "in") then [lit "q"] else [lit "  ab\n", lit "  c\n"],
    canWrite := fun f => f = lit "out",
    contents := fun b => if b.memory = lit "/h/.config/boxes/boxes-config" then
      some [.box (lit "dots") [lit "dt"] minimalItems (lit "dots"), .box (lit "frame") [lit "fr"] frameItems (lit "frame")] else none }

example : wholeProgram sampleMachine { options := [.design (lit "fr")] } 20 =
    some (.ok (.output none (lit "  +--*\n  |ab!\n  |c !\n  +==+\n"))) := by decide +kernel
example : wholeProgram sampleMachine { options := [.design (lit "frame"), .size (lit "6")], files := [lit "in", lit "out"] } 20 =
    some (.ok (.output (some (lit "out")) (lit "+----*\n|q   !\n+====+"))) := by decide +kernel
example : wholeProgram sampleMachine { options := [.design (lit "frame")], files := [lit "in", lit "other"] } 20 = some (.fail 1) := by
  decide +kernel
example : wholeProgram sampleMachine { options := [.create (lit "//")] } 20 = some (.ok (.output none (lit "  // ab\n  // c\n"))) := by
  decide +kernel
example : wholeProgram sampleMachine { options := [.query (lit "plain")] } 20 =
    some (.ok (.output none (lit "frame\nfr (alias)\n"))) := by decide +kernel
example : wholeProgram { sampleMachine with input := fun _ => [lit "+--*\n", lit "|ab!\n", lit "|c !\n", lit "+==+\n"] } { options := [.remove] } 20 =
    some (.ok (.output none (lit "ab\nc\n"))) := by decide +kernel
example : wholeProgram { sampleMachine with input := fun _ => [] } { options := [.mend] } 20 = some (.ok (.output none [])) := by decide +kernel
example : wholeProgram sampleMachine { options := [.design (lit "unknown")] } 20 = some (.fail 1) := by decide +kernel

/-- the designs of the example are found as the theorems assume -/
example : ∃ a file d, optionLoop [.design (lit "fr")] createNewOpt = some (a, false) ∧ Loaded sampleMachine a 20 file d [] [] ∧ d.reprules = [] ∧
    UsableFiles sampleMachine.canRead sampleMachine.canWrite [] := by
  refine ⟨{ createNewOpt with design := some (lit "fr"), byUser := true }, fileName "/h/.config/boxes/boxes-config", ?_⟩
  have h1 : (discoverConfigFile sampleDb { sampleDisk with optF := none } false) = some (some (fileName "/h/.config/boxes/boxes-config")) := by
    decide +kernel
  have h2 : (match parseConfigFiles (parseEnv sampleMachine { createNewOpt with design := some (lit "fr"), byUser := true }) sampleMachine.contents 20
      (fileName "/h/.config/boxes/boxes-config") with
      | some (.ok ([d], [])) => decide (d.reprules.length = 0)
      | _ => false) = true := by decide +kernel
  split at h2
  · rename_i d h
    exact ⟨d, rfl, ⟨h1, h⟩, by simpa using h2, by simp, by simp, by simp⟩
  · simp at h2

/-- C69: A parent line `:global:` means the first readable file of the system-wide places, whatever is given with `-f`. -/
theorem C69_parent_global (m : Machine) (a : Args) (path : Str) (hesc : 0x1b ∉ path) (hok : ∀ c ∈ path, ¬ Forbidden m.db c)
    (hnar : NarrowBlanks m.db path) (hne : dropTrailing m.db (path.dropWhile (fun c => decide (Blank m.db c))) ≠ [])
    (hg : SameName (asciiForm m.db (dropTrailing m.db (path.dropWhile (fun c => decide (Blank m.db c))))) (lit ":global:"))
    (hp : Nameable m.db m.surroundings (globalConfigCandidates m.surroundings)) :
    resolveParent (parseEnv m a) path =
      (firstFile m.surroundings (globalConfigCandidates m.surroundings)).bind (fromUnicode m.db) := by
  obtain ⟨b, -, h⟩ := C63_parent_exact (parseEnv m a) path _ hesc hok hnar rfl
  rw [h]
  refine (if_neg hne).trans ((if_pos hg).trans ?_)
  show (discoverConfigFile m.db { m.surroundings with optF := a.f } true).bind id = _
  rw [C34_global m.db { m.surroundings with optF := a.f } hp]
  rfl

example : SameName (asciiForm sampleDb (dropTrailing sampleDb ((lit " :Global: ").dropWhile (fun c => decide (Blank sampleDb c))))) (lit ":global:") := by
  decide +kernel
example : resolveParent (parseEnv sampleMachine { createNewOpt with f := some (lit "/h/") }) (lit " :Global: ") =
    some (fileName "/etc/boxes/boxes-config") := by decide +kernel

/-- C69: With `-c` no configuration file is needed, but the program ends with an error if none is found. -/
theorem C69_create_disagrees :
    wholeProgram { sampleMachine with surroundings := { sampleDisk with isFile := fun _ => false } } { options := [.create (lit "//")] } 20 =
      some (.fail 1) := by decide +kernel

/-- C69: With `--no-color`, a drawn box has no escape sequences, but the text that remains when a box is removed keeps them. -/
theorem C69_no_color_disagrees :
    wholeProgram { sampleMachine with input := fun _ => [lit "a" ++ [0x1b] ++ lit "[1mb"] } { options := [.design (lit "frame"), .noColor] } 20 =
      some (.ok (.output none (lit "+--*\n|ab!\n+==+"))) ∧
    wholeProgram { sampleMachine with input := fun _ => [lit "+--*\n", lit "|a" ++ [0x1b] ++ lit "[1mb!\n", lit "+==+\n"] }
        { options := [.design (lit "frame"), .remove, .noColor] } 20 =
      some (.ok (.output none (lit "a" ++ [0x1b] ++ lit "[1mb\n"))) := by decide +kernel

end Boxes
