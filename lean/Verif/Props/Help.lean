import Verif.Lemmas.Defaults
import Verif.Model.Help
import Verif.Spec.Help

/-!
# C89: The help text tells the truth
-/

set_option linter.unusedVariables false
set_option linter.unusedSimpArgs false

namespace Boxes
open Spec

/-- the names of options in the help text -/
theorem documented_all (charset config : Str) : ((helpLines charset config).map documented).flatten = [
    (lit "-a", true), (lit "--align", true), (lit "-c", true), (lit "--create", true), (lit "--color", false),
    (lit "--no-color", false), (lit "-d", true), (lit "--design", true), (lit "-e", true), (lit "--eol", true),
    (lit "-f", true), (lit "--config", true), (lit "-h", false), (lit "--help", false), (lit "-i", true),
    (lit "--indent", true), (lit "-k", true), (lit "--kill-blank", false), (lit "--no-kill-blank", false), (lit "-l", false),
    (lit "--list", false), (lit "-m", false), (lit "--mend", false), (lit "-n", true), (lit "--encoding", true),
    (lit "-p", true), (lit "--padding", true), (lit "-q", true), (lit "--tag-query", true), (lit "-r", false),
    (lit "--remove", false), (lit "-s", true), (lit "--size", true), (lit "-t", true), (lit "--tabs", true),
    (lit "-v", false), (lit "--version", false)] := by
  rfl

/-- the option that has the name, with the argument -/
def DocumentedOption (w : Str) (arg : Option Str) (o : Option') : Prop :=
  ∀ rest, getoptWords none (w :: arg.toList ++ rest) = (o :: (getoptWords none rest).1, (getoptWords none rest).2)

/-- C89: Every option in the help text exists.  It takes an argument if the help text says so, and only then, and all names in one line are names of the same option. -/
theorem C89_documented (charset config : Str) : ∀ line ∈ helpLines charset config, ∃ f : Option Str → Option', ∀ p ∈ documented line, ∀ arg : Option Str,
    arg.isSome = p.2 → f arg ≠ .bad ∧ DocumentedOption p.1 arg (f arg) := by
  intro line hl
  simp only [helpLines, List.mem_cons, List.not_mem_nil, or_false] at hl
  rcases hl with rfl | rfl | rfl | rfl | rfl | rfl | rfl | rfl | rfl | rfl | rfl | rfl | rfl | rfl | rfl | rfl | rfl | rfl | rfl | rfl | rfl | rfl | rfl | rfl
  · exact ⟨fun _ => .help, fun p hp => absurd (show p ∈ [] from hp) List.not_mem_nil⟩
  · exact ⟨fun _ => .help, fun p hp => absurd (show p ∈ [] from hp) List.not_mem_nil⟩
  · exact ⟨fun _ => .help, fun p hp => absurd (show p ∈ [] from hp) List.not_mem_nil⟩
  · refine ⟨fun s => .align (s.getD []), fun p hp arg ha => ?_⟩
    replace hp : p ∈ [(lit "-a", true), (lit "--align", true)] := hp
    simp only [List.mem_cons, List.not_mem_nil, or_false] at hp
    obtain rfl | rfl := hp <;> obtain ⟨s, rfl⟩ := Option.isSome_iff_exists.1 ha
    all_goals exact ⟨by simp, fun _ => rfl⟩
  · refine ⟨fun s => .create (s.getD []), fun p hp arg ha => ?_⟩
    replace hp : p ∈ [(lit "-c", true), (lit "--create", true)] := hp
    simp only [List.mem_cons, List.not_mem_nil, or_false] at hp
    obtain rfl | rfl := hp <;> obtain ⟨s, rfl⟩ := Option.isSome_iff_exists.1 ha
    all_goals exact ⟨by simp, fun _ => rfl⟩
  · refine ⟨fun _ => .color, fun p hp arg ha => ?_⟩
    replace hp : p ∈ [(lit "--color", false)] := hp
    simp only [List.mem_cons, List.not_mem_nil, or_false] at hp
    subst hp; (obtain rfl : arg = none := by simpa using ha)
    all_goals exact ⟨by simp, fun _ => rfl⟩
  · refine ⟨fun _ => .noColor, fun p hp arg ha => ?_⟩
    replace hp : p ∈ [(lit "--no-color", false)] := hp
    simp only [List.mem_cons, List.not_mem_nil, or_false] at hp
    subst hp; (obtain rfl : arg = none := by simpa using ha)
    all_goals exact ⟨by simp, fun _ => rfl⟩
  · refine ⟨fun s => .design (s.getD []), fun p hp arg ha => ?_⟩
    replace hp : p ∈ [(lit "-d", true), (lit "--design", true)] := hp
    simp only [List.mem_cons, List.not_mem_nil, or_false] at hp
    obtain rfl | rfl := hp <;> obtain ⟨s, rfl⟩ := Option.isSome_iff_exists.1 ha
    all_goals exact ⟨by simp, fun _ => rfl⟩
  · refine ⟨fun s => .eol (s.getD []), fun p hp arg ha => ?_⟩
    replace hp : p ∈ [(lit "-e", true), (lit "--eol", true)] := hp
    simp only [List.mem_cons, List.not_mem_nil, or_false] at hp
    obtain rfl | rfl := hp <;> obtain ⟨s, rfl⟩ := Option.isSome_iff_exists.1 ha
    all_goals exact ⟨by simp, fun _ => rfl⟩
  · refine ⟨fun s => .config (s.getD []), fun p hp arg ha => ?_⟩
    replace hp : p ∈ [(lit "-f", true), (lit "--config", true)] := hp
    simp only [List.mem_cons, List.not_mem_nil, or_false] at hp
    obtain rfl | rfl := hp <;> obtain ⟨s, rfl⟩ := Option.isSome_iff_exists.1 ha
    all_goals exact ⟨by simp, fun _ => rfl⟩
  · refine ⟨fun _ => .help, fun p hp arg ha => ?_⟩
    replace hp : p ∈ [(lit "-h", false), (lit "--help", false)] := hp
    simp only [List.mem_cons, List.not_mem_nil, or_false] at hp
    obtain rfl | rfl := hp <;> (obtain rfl : arg = none := by simpa using ha)
    all_goals exact ⟨by simp, fun _ => rfl⟩
  · refine ⟨fun s => .indent (s.getD []), fun p hp arg ha => ?_⟩
    replace hp : p ∈ [(lit "-i", true), (lit "--indent", true)] := hp
    simp only [List.mem_cons, List.not_mem_nil, or_false] at hp
    obtain rfl | rfl := hp <;> obtain ⟨s, rfl⟩ := Option.isSome_iff_exists.1 ha
    all_goals exact ⟨by simp, fun _ => rfl⟩
  · refine ⟨fun s => .kill (s.getD []), fun p hp arg ha => ?_⟩
    replace hp : p ∈ [(lit "-k", true)] := hp
    simp only [List.mem_cons, List.not_mem_nil, or_false] at hp
    subst hp; obtain ⟨s, rfl⟩ := Option.isSome_iff_exists.1 ha
    all_goals exact ⟨by simp, fun _ => rfl⟩
  · refine ⟨fun _ => .killBlank, fun p hp arg ha => ?_⟩
    replace hp : p ∈ [(lit "--kill-blank", false)] := hp
    simp only [List.mem_cons, List.not_mem_nil, or_false] at hp
    subst hp; (obtain rfl : arg = none := by simpa using ha)
    all_goals exact ⟨by simp, fun _ => rfl⟩
  · refine ⟨fun _ => .noKillBlank, fun p hp arg ha => ?_⟩
    replace hp : p ∈ [(lit "--no-kill-blank", false)] := hp
    simp only [List.mem_cons, List.not_mem_nil, or_false] at hp
    subst hp; (obtain rfl : arg = none := by simpa using ha)
    all_goals exact ⟨by simp, fun _ => rfl⟩
  · refine ⟨fun _ => .list, fun p hp arg ha => ?_⟩
    replace hp : p ∈ [(lit "-l", false), (lit "--list", false)] := hp
    simp only [List.mem_cons, List.not_mem_nil, or_false] at hp
    obtain rfl | rfl := hp <;> (obtain rfl : arg = none := by simpa using ha)
    all_goals exact ⟨by simp, fun _ => rfl⟩
  · refine ⟨fun _ => .mend, fun p hp arg ha => ?_⟩
    replace hp : p ∈ [(lit "-m", false), (lit "--mend", false)] := hp
    simp only [List.mem_cons, List.not_mem_nil, or_false] at hp
    obtain rfl | rfl := hp <;> (obtain rfl : arg = none := by simpa using ha)
    all_goals exact ⟨by simp, fun _ => rfl⟩
  · refine ⟨fun s => .encoding (s.getD []), fun p hp arg ha => ?_⟩
    replace hp : p ∈ [(lit "-n", true), (lit "--encoding", true)] := hp
    simp only [List.mem_cons, List.not_mem_nil, or_false] at hp
    obtain rfl | rfl := hp <;> obtain ⟨s, rfl⟩ := Option.isSome_iff_exists.1 ha
    all_goals exact ⟨by simp, fun _ => rfl⟩
  · refine ⟨fun s => .padding (s.getD []), fun p hp arg ha => ?_⟩
    replace hp : p ∈ [(lit "-p", true), (lit "--padding", true)] := hp
    simp only [List.mem_cons, List.not_mem_nil, or_false] at hp
    obtain rfl | rfl := hp <;> obtain ⟨s, rfl⟩ := Option.isSome_iff_exists.1 ha
    all_goals exact ⟨by simp, fun _ => rfl⟩
  · refine ⟨fun s => .query (s.getD []), fun p hp arg ha => ?_⟩
    replace hp : p ∈ [(lit "-q", true), (lit "--tag-query", true)] := hp
    simp only [List.mem_cons, List.not_mem_nil, or_false] at hp
    obtain rfl | rfl := hp <;> obtain ⟨s, rfl⟩ := Option.isSome_iff_exists.1 ha
    all_goals exact ⟨by simp, fun _ => rfl⟩
  · refine ⟨fun _ => .remove, fun p hp arg ha => ?_⟩
    replace hp : p ∈ [(lit "-r", false), (lit "--remove", false)] := hp
    simp only [List.mem_cons, List.not_mem_nil, or_false] at hp
    obtain rfl | rfl := hp <;> (obtain rfl : arg = none := by simpa using ha)
    all_goals exact ⟨by simp, fun _ => rfl⟩
  · refine ⟨fun s => .size (s.getD []), fun p hp arg ha => ?_⟩
    replace hp : p ∈ [(lit "-s", true), (lit "--size", true)] := hp
    simp only [List.mem_cons, List.not_mem_nil, or_false] at hp
    obtain rfl | rfl := hp <;> obtain ⟨s, rfl⟩ := Option.isSome_iff_exists.1 ha
    all_goals exact ⟨by simp, fun _ => rfl⟩
  · refine ⟨fun s => .tabs (s.getD []), fun p hp arg ha => ?_⟩
    replace hp : p ∈ [(lit "-t", true), (lit "--tabs", true)] := hp
    simp only [List.mem_cons, List.not_mem_nil, or_false] at hp
    obtain rfl | rfl := hp <;> obtain ⟨s, rfl⟩ := Option.isSome_iff_exists.1 ha
    all_goals exact ⟨by simp, fun _ => rfl⟩
  · refine ⟨fun _ => .version, fun p hp arg ha => ?_⟩
    replace hp : p ∈ [(lit "-v", false), (lit "--version", false)] := hp
    simp only [List.mem_cons, List.not_mem_nil, or_false] at hp
    obtain rfl | rfl := hp <;> (obtain rfl : arg = none := by simpa using ha)
    all_goals exact ⟨by simp, fun _ => rfl⟩

/-- C89: Every option that exists is in the help text. -/
theorem C89_complete (charset config : Str) (o : Option') (hb : o ≠ .bad) (hx : ∀ s, o ≠ .extra s) :
    ∃ line ∈ helpLines charset config, ∃ p ∈ documented line, ∃ arg : Option Str, (arg.isSome = p.2) ∧ DocumentedOption p.1 arg o := by
  have key : ∀ p arg, p ∈ ((helpLines charset config).map documented).flatten → (arg.isSome = p.2) → DocumentedOption p.1 arg o →
      ∃ line ∈ helpLines charset config, ∃ p ∈ documented line, ∃ arg : Option Str, (arg.isSome = p.2) ∧ DocumentedOption p.1 arg o := by
    intro p arg hm h1 h2
    obtain ⟨l, hl, hp⟩ := List.mem_flatten.1 hm
    obtain ⟨line, hline, rfl⟩ := List.mem_map.1 hl
    exact ⟨line, hline, p, hp, arg, h1, h2⟩
  rw [documented_all] at key
  cases o with
  | align s => exact key (lit "--align", true) (some s) (by simp) rfl (fun _ => rfl)
  | create s => exact key (lit "--create", true) (some s) (by simp) rfl (fun _ => rfl)
  | color => exact key (lit "--color", false) none (by simp) rfl (fun _ => rfl)
  | noColor => exact key (lit "--no-color", false) none (by simp) rfl (fun _ => rfl)
  | design s => exact key (lit "--design", true) (some s) (by simp) rfl (fun _ => rfl)
  | eol s => exact key (lit "--eol", true) (some s) (by simp) rfl (fun _ => rfl)
  | config s => exact key (lit "--config", true) (some s) (by simp) rfl (fun _ => rfl)
  | help => exact key (lit "--help", false) none (by simp) rfl (fun _ => rfl)
  | indent s => exact key (lit "--indent", true) (some s) (by simp) rfl (fun _ => rfl)
  | kill s => exact key (lit "-k", true) (some s) (by simp) rfl (fun _ => rfl)
  | killBlank => exact key (lit "--kill-blank", false) none (by simp) rfl (fun _ => rfl)
  | noKillBlank => exact key (lit "--no-kill-blank", false) none (by simp) rfl (fun _ => rfl)
  | list => exact key (lit "--list", false) none (by simp) rfl (fun _ => rfl)
  | mend => exact key (lit "--mend", false) none (by simp) rfl (fun _ => rfl)
  | encoding s => exact key (lit "--encoding", true) (some s) (by simp) rfl (fun _ => rfl)
  | padding s => exact key (lit "--padding", true) (some s) (by simp) rfl (fun _ => rfl)
  | query s => exact key (lit "--tag-query", true) (some s) (by simp) rfl (fun _ => rfl)
  | remove => exact key (lit "--remove", false) none (by simp) rfl (fun _ => rfl)
  | size s => exact key (lit "--size", true) (some s) (by simp) rfl (fun _ => rfl)
  | tabs s => exact key (lit "--tabs", true) (some s) (by simp) rfl (fun _ => rfl)
  | version => exact key (lit "--version", false) none (by simp) rfl (fun _ => rfl)
  | extra s => exact absurd rfl (hx s)
  | bad => exact absurd rfl hb

/-! ## The defaults -/

/-- C89: The help text names the configuration file that is used if there is no option `-f`.  If it names none, then there is none, and nothing works without
that option. -/
theorem C89_config (m : Machine) (charset : Str) (c : CommandLine) (fuel : Nat) (hfirst : c.first ≠ some (lit "-?")) {a : Args}
    (hopts : optionLoop c.options createNewOpt = some (a, false)) (hf : ∀ s, .config s ∉ c.options) :
    (∀ file d ds ps, Loaded m a fuel file d ds ps → 0x1b ∉ file.memory →
      usageLong m charset = some ((helpLines charset file.memory).map (· ++ [0x0a])).flatten) ∧
    (discoverConfigFile m.db { m.surroundings with optF := none } false = some none →
      usageLong m charset = some ((helpLines charset (lit "none")).map (· ++ [0x0a])).flatten ∧ wholeProgram m c fuel = some (.fail 1)) := by
  have hfn := noConfig_none hopts hf
  refine ⟨fun file d ds ps h hesc => ?_, fun h => ⟨?_, ?_⟩⟩
  · have hd := h.found
    rw [hfn] at hd
    obtain ⟨p, hp⟩ := discover_named _ _ hd
    have hm : fromUnicode m.db file.memory = some file := by rw [fromUnicode_memory hp]; exact hp
    have ht : Text file.memory file.memory := Text.plain (fun c hc e => hesc (e ▸ hc))
    have ho := (C03_output m.db ht hm).2
    unfold usageLong
    rw [hd]
    simp only [Option.bind_eq_bind, Option.bind_some, ho]
  · unfold usageLong
    rw [h]
    rfl
  · exact ((C69_refused m c fuel hfirst).2 a hopts).2 (by rw [hfn]; exact h)

/-- C89: What is printed if help or the version is asked for. -/
theorem C89_help (m : Machine) (charset version : Str) (argv : List Str) (fuel : Nat) (t : Str) (ht : usageLong m charset = some t) :
    (argv.head? = some (lit "-?") → printedBy m charset version argv fuel = some (.ok (none, t))) ∧
    (argv.head? ≠ some (lit "-?") → ∀ pre post b, optionLoop pre createNewOpt = some (b, false) →
      ((commandLineOf argv).options = pre ++ .help :: post → printedBy m charset version argv fuel = some (.ok (none, t))) ∧
      ((commandLineOf argv).options = pre ++ .version :: post →
        printedBy m charset version argv fuel = some (.ok (none, lit "boxes version " ++ version ++ lit "\n")))) := by
  have h1 : wholeProgram m (commandLineOf argv) fuel = some (.ok .usage) → printedBy m charset version argv fuel = some (.ok (none, t)) := by
    intro h
    unfold printedBy boxesMain
    rw [h]
    simp only [ht]
    rfl
  refine ⟨fun h => h1 ((C69_help m _ fuel).1.2 (.inl h)), fun hf pre post b hb => ⟨fun h => h1 ((C69_help m _ fuel).1.2 (.inr ⟨pre, post, b, h, hb⟩)), fun h => ?_⟩⟩
  unfold printedBy boxesMain
  rw [(C69_help m _ fuel).2.2 ⟨hf, pre, post, b, h, hb⟩]
  rfl

/-- C89: Otherwise, what is printed is what the program puts out. -/
theorem C89_else (m : Machine) (charset version : Str) (argv : List Str) (fuel : Nat) :
    (∀ f t, boxesMain m argv fuel = some (.ok (.output f t)) → printedBy m charset version argv fuel = some (.ok (f, t))) ∧
    (∀ n, boxesMain m argv fuel = some (.fail n) → printedBy m charset version argv fuel = some (.fail n)) ∧
    (boxesMain m argv fuel = some .ub → printedBy m charset version argv fuel = some .ub) ∧
    (boxesMain m argv fuel = none → printedBy m charset version argv fuel = none) := by
  refine ⟨?_, ?_, ?_, ?_⟩ <;> intros <;> unfold printedBy <;> simp_all

/-- C89: The defaults which the help text shows for the alignment, the line breaks and the tabs are the defaults: giving one of them in front of the
other arguments changes nothing. -/
theorem C89_defaults (m : Machine) (charset config : Str) : ∀ line ∈ helpLines charset config, ∀ p ∈ documented line, ∀ v, shownDefault line = some v →
    p.1 ∈ [lit "-a", lit "--align", lit "-e", lit "--eol", lit "-t", lit "--tabs"] → ∀ (argv : List Str) (fuel : Nat), argv.head? ≠ some (lit "-?") →
    boxesMain m (p.1 :: v :: argv) fuel = boxesMain m argv fuel := by
  have key : ∀ w v : Str, (w, v) ∈ [(lit "-a", lit "hlvt"), (lit "--align", lit "hlvt"), (lit "-e", lit "LF"), (lit "--eol", lit "LF"), (lit "-t", lit "8e"), (lit "--tabs", lit "8e")] →
      ∀ (argv : List Str) (fuel : Nat), argv.head? ≠ some (lit "-?") → boxesMain m (w :: v :: argv) fuel = boxesMain m argv fuel := by
    intro w v hw argv fuel h
    have place : ∀ o a0, getoptWords none (w :: v :: argv) = (o :: (getoptWords none argv).1, (getoptWords none argv).2) → w ≠ lit "-?" →
        SameArgs createNewOpt a0 → (∀ rest, optionLoop (o :: rest) createNewOpt = optionLoop rest a0) → boxesMain m (w :: v :: argv) fuel = boxesMain m argv fuel := by
      intro o a0 e hne hs ho
      unfold boxesMain
      apply wholeProgram_place
      unfold commandLineOf
      rw [e]
      exact processCommandline_place h (by simpa using hne) hs (ho _)
    simp only [List.mem_cons, List.not_mem_nil, or_false, Prod.mk.injEq] at hw
    rcases hw with ⟨rfl, rfl⟩ | ⟨rfl, rfl⟩ | ⟨rfl, rfl⟩ | ⟨rfl, rfl⟩ | ⟨rfl, rfl⟩ | ⟨rfl, rfl⟩
    · exact place (.align (lit "hlvt")) { createNewOpt with opt := { createNewOpt.opt with halign := 'l', valign := 't' } } rfl (by decide)
        ⟨⟨rfl, by decide, by decide, by decide, by decide⟩, rfl⟩ (fun _ => rfl)
    · exact place (.align (lit "hlvt")) { createNewOpt with opt := { createNewOpt.opt with halign := 'l', valign := 't' } } rfl (by decide)
        ⟨⟨rfl, by decide, by decide, by decide, by decide⟩, rfl⟩ (fun _ => rfl)
    · exact place (.eol (lit "LF")) { createNewOpt with eolOverridden := true } rfl (by decide) ⟨⟨rfl, by decide, by decide, by decide, by decide⟩, rfl⟩ (fun _ => rfl)
    · exact place (.eol (lit "LF")) { createNewOpt with eolOverridden := true } rfl (by decide) ⟨⟨rfl, by decide, by decide, by decide, by decide⟩, rfl⟩ (fun _ => rfl)
    · exact place (.tabs (lit "8e")) createNewOpt rfl (by decide) ⟨⟨rfl, by decide, by decide, by decide, by decide⟩, rfl⟩ (fun _ => rfl)
    · exact place (.tabs (lit "8e")) createNewOpt rfl (by decide) ⟨⟨rfl, by decide, by decide, by decide, by decide⟩, rfl⟩ (fun _ => rfl)
  intro line hl p hp v hv hn
  simp only [helpLines, List.mem_cons, List.not_mem_nil, or_false] at hl
  rcases hl with rfl | rfl | rfl | rfl | rfl | rfl | rfl | rfl | rfl | rfl | rfl | rfl | rfl | rfl | rfl | rfl | rfl | rfl | rfl | rfl | rfl | rfl | rfl | rfl
  · exact absurd (show p ∈ [] from hp) List.not_mem_nil
  · exact absurd (show p ∈ [] from hp) List.not_mem_nil
  · exact absurd (show p ∈ [] from hp) List.not_mem_nil
  · replace hp : p ∈ [(lit "-a", true), (lit "--align", true)] := hp
    simp only [List.mem_cons, List.not_mem_nil, or_false] at hp
    obtain rfl : lit "hlvt" = v := Option.some.inj hv
    rcases hp with rfl | rfl
    · exact key _ _ (by decide)
    · exact key _ _ (by decide)
  · replace hp : p ∈ [(lit "-c", true), (lit "--create", true)] := hp
    simp only [List.mem_cons, List.not_mem_nil, or_false] at hp
    rcases hp with rfl | rfl
    all_goals exact absurd hn (by decide)
  · replace hp : p ∈ [(lit "--color", false)] := hp
    simp only [List.mem_cons, List.not_mem_nil, or_false] at hp
    subst hp
    all_goals exact absurd hn (by decide)
  · replace hp : p ∈ [(lit "--no-color", false)] := hp
    simp only [List.mem_cons, List.not_mem_nil, or_false] at hp
    subst hp
    all_goals exact absurd hn (by decide)
  · replace hp : p ∈ [(lit "-d", true), (lit "--design", true)] := hp
    simp only [List.mem_cons, List.not_mem_nil, or_false] at hp
    rcases hp with rfl | rfl
    all_goals exact absurd hn (by decide)
  · replace hp : p ∈ [(lit "-e", true), (lit "--eol", true)] := hp
    simp only [List.mem_cons, List.not_mem_nil, or_false] at hp
    obtain rfl : lit "LF" = v := Option.some.inj hv
    rcases hp with rfl | rfl
    · exact key _ _ (by decide)
    · exact key _ _ (by decide)
  · replace hp : p ∈ [(lit "-f", true), (lit "--config", true)] := hp
    simp only [List.mem_cons, List.not_mem_nil, or_false] at hp
    rcases hp with rfl | rfl
    all_goals exact absurd hn (by decide)
  · replace hp : p ∈ [(lit "-h", false), (lit "--help", false)] := hp
    simp only [List.mem_cons, List.not_mem_nil, or_false] at hp
    rcases hp with rfl | rfl
    all_goals exact absurd hn (by decide)
  · replace hp : p ∈ [(lit "-i", true), (lit "--indent", true)] := hp
    simp only [List.mem_cons, List.not_mem_nil, or_false] at hp
    rcases hp with rfl | rfl
    all_goals exact absurd hn (by decide)
  · replace hp : p ∈ [(lit "-k", true)] := hp
    simp only [List.mem_cons, List.not_mem_nil, or_false] at hp
    subst hp
    all_goals exact absurd hn (by decide)
  · replace hp : p ∈ [(lit "--kill-blank", false)] := hp
    simp only [List.mem_cons, List.not_mem_nil, or_false] at hp
    subst hp
    all_goals exact absurd hn (by decide)
  · replace hp : p ∈ [(lit "--no-kill-blank", false)] := hp
    simp only [List.mem_cons, List.not_mem_nil, or_false] at hp
    subst hp
    all_goals exact absurd hn (by decide)
  · replace hp : p ∈ [(lit "-l", false), (lit "--list", false)] := hp
    simp only [List.mem_cons, List.not_mem_nil, or_false] at hp
    rcases hp with rfl | rfl
    all_goals exact absurd hn (by decide)
  · replace hp : p ∈ [(lit "-m", false), (lit "--mend", false)] := hp
    simp only [List.mem_cons, List.not_mem_nil, or_false] at hp
    rcases hp with rfl | rfl
    all_goals exact absurd hn (by decide)
  · replace hp : p ∈ [(lit "-n", true), (lit "--encoding", true)] := hp
    simp only [List.mem_cons, List.not_mem_nil, or_false] at hp
    rcases hp with rfl | rfl
    all_goals exact absurd hn (by decide)
  · replace hp : p ∈ [(lit "-p", true), (lit "--padding", true)] := hp
    simp only [List.mem_cons, List.not_mem_nil, or_false] at hp
    rcases hp with rfl | rfl
    all_goals exact absurd hn (by decide)
  · replace hp : p ∈ [(lit "-q", true), (lit "--tag-query", true)] := hp
    simp only [List.mem_cons, List.not_mem_nil, or_false] at hp
    rcases hp with rfl | rfl
    all_goals exact absurd hn (by decide)
  · replace hp : p ∈ [(lit "-r", false), (lit "--remove", false)] := hp
    simp only [List.mem_cons, List.not_mem_nil, or_false] at hp
    rcases hp with rfl | rfl
    all_goals exact absurd hn (by decide)
  · replace hp : p ∈ [(lit "-s", true), (lit "--size", true)] := hp
    simp only [List.mem_cons, List.not_mem_nil, or_false] at hp
    rcases hp with rfl | rfl
    all_goals exact absurd hn (by decide)
  · replace hp : p ∈ [(lit "-t", true), (lit "--tabs", true)] := hp
    simp only [List.mem_cons, List.not_mem_nil, or_false] at hp
    obtain rfl : lit "8e" = v := Option.some.inj hv
    rcases hp with rfl | rfl
    · exact key _ _ (by decide)
    · exact key _ _ (by decide)
  · replace hp : p ∈ [(lit "-v", false), (lit "--version", false)] := hp
    simp only [List.mem_cons, List.not_mem_nil, or_false] at hp
    rcases hp with rfl | rfl
    all_goals exact absurd hn (by decide)

/-- C89: The help text shows defaults for these options; the ones of `-f` and `-n` are the configuration file (see `C89_config`) and the encoding. -/
theorem C89_shown (charset config : Str) (h1 : 0x5d ∉ config) (h2 : 0x5d ∉ charset) :
    ∀ w v, (w, v) ∈ [(lit "-a", lit "hlvt"), (lit "-d", lit "first one in file"), (lit "-e", lit "LF"), (lit "-f", config), (lit "-i", lit "box"),
      (lit "-n", charset), (lit "-p", lit "none"), (lit "-t", lit "8e")] →
    ∃ line ∈ helpLines charset config, (w, true) ∈ documented line ∧ shownDefault line = some v := by
  have htake : ∀ s : Str, 0x5d ∉ s → (s ++ [0x5d]).takeWhile (fun c => decide (c ≠ 0x5d)) = s := by
    intro s hs
    induction s with
    | nil => rfl
    | cons c s ih =>
      simp only [List.mem_cons, not_or] at hs
      rw [List.cons_append, List.takeWhile_cons, if_pos (by simpa using Ne.symm hs.1), ih hs.2]
  intro w v hw
  simp only [List.mem_cons, List.not_mem_nil, or_false, Prod.mk.injEq] at hw
  rcases hw with ⟨rfl, rfl⟩ | ⟨rfl, rfl⟩ | ⟨rfl, rfl⟩ | ⟨rfl, rfl⟩ | ⟨rfl, rfl⟩ | ⟨rfl, rfl⟩ | ⟨rfl, rfl⟩ | ⟨rfl, rfl⟩
  · exact ⟨lit "  -a, --align <fmt>     Alignment/positioning of text inside box [default: hlvt]", by simp [helpLines], List.mem_cons_self, by decide +kernel⟩
  · exact ⟨lit "  -d, --design <name>   Box design [default: first one in file]", by simp [helpLines], List.mem_cons_self, by decide +kernel⟩
  · exact ⟨lit "  -e, --eol <eol>       Override line break type (experimental) [default: LF]", by simp [helpLines], List.mem_cons_self, by decide +kernel⟩
  · refine ⟨lit "  -f, --config <file>   Configuration file [default: " ++ v ++ lit "]", by simp [helpLines], List.mem_cons_self, ?_⟩
    exact congrArg some (htake v h1)
  · exact ⟨lit "  -i, --indent <mode>   Indentation mode [default: box]", by simp [helpLines], List.mem_cons_self, by decide +kernel⟩
  · refine ⟨lit "  -n, --encoding <enc>  Character encoding of input and output [default: " ++ v ++ lit "]", by simp [helpLines], List.mem_cons_self, ?_⟩
    exact congrArg some (htake v h2)
  · exact ⟨lit "  -p, --padding <fmt>   Padding [default: none]", by simp [helpLines], List.mem_cons_self, by decide +kernel⟩
  · exact ⟨lit "  -t, --tabs <str>      Tab stop distance and expansion [default: 8e]", by simp [helpLines], List.mem_cons_self, by decide +kernel⟩

/-- C89: An option of which the help text says that it is like `-k` with an argument can be replaced by that, in front of all other arguments. -/
theorem C89_like (m : Machine) (charset config : Str) : ∀ line ∈ helpLines charset config, ∀ p ∈ documented line, p.2 = false → ∀ v, shownLike line = some v →
    ∀ (argv : List Str) (fuel : Nat), boxesMain m (p.1 :: argv) fuel = boxesMain m (lit "-k" :: v :: argv) fuel := by
  have key : ∀ w v : Str, (w, v) ∈ [(lit "--kill-blank", lit "true"), (lit "--no-kill-blank", lit "false")] →
      ∀ (argv : List Str) (fuel : Nat), boxesMain m (w :: argv) fuel = boxesMain m (lit "-k" :: v :: argv) fuel := by
    intro w v hw argv fuel
    simp only [List.mem_cons, List.not_mem_nil, or_false, Prod.mk.injEq] at hw
    rcases hw with ⟨rfl, rfl⟩ | ⟨rfl, rfl⟩
    · have e1 : getoptWords none (lit "--kill-blank" :: argv) = (.killBlank :: (getoptWords none argv).1, (getoptWords none argv).2) := rfl
      have e2 : getoptWords none (lit "-k" :: lit "true" :: argv) = (.kill (lit "true") :: (getoptWords none argv).1, (getoptWords none argv).2) := rfl
      have h : ∀ cr cw fs, processCommandline cr cw (some (lit "--kill-blank")) (.killBlank :: (getoptWords none argv).1) fs =
          processCommandline cr cw (some (lit "-k")) (.kill (lit "true") :: (getoptWords none argv).1) fs := fun _ _ _ => rfl
      unfold boxesMain wholeProgram commandLineOf
      rw [e1, e2]
      simp only [List.head?_cons]
      rw [h]
    · have e1 : getoptWords none (lit "--no-kill-blank" :: argv) = (.noKillBlank :: (getoptWords none argv).1, (getoptWords none argv).2) := rfl
      have e2 : getoptWords none (lit "-k" :: lit "false" :: argv) = (.kill (lit "false") :: (getoptWords none argv).1, (getoptWords none argv).2) := rfl
      have h : ∀ cr cw fs, processCommandline cr cw (some (lit "--no-kill-blank")) (.noKillBlank :: (getoptWords none argv).1) fs =
          processCommandline cr cw (some (lit "-k")) (.kill (lit "false") :: (getoptWords none argv).1) fs := fun _ _ _ => rfl
      unfold boxesMain wholeProgram commandLineOf
      rw [e1, e2]
      simp only [List.head?_cons]
      rw [h]
  intro line hl p hp hf v hv
  simp only [helpLines, List.mem_cons, List.not_mem_nil, or_false] at hl
  rcases hl with rfl | rfl | rfl | rfl | rfl | rfl | rfl | rfl | rfl | rfl | rfl | rfl | rfl | rfl | rfl | rfl | rfl | rfl | rfl | rfl | rfl | rfl | rfl | rfl
  case inr.inr.inr.inr.inr.inr.inr.inr.inr.inr.inr.inr.inr.inl =>
    replace hp : p ∈ [(lit "--kill-blank", false)] := hp
    rw [List.mem_singleton] at hp
    subst hp
    obtain rfl : lit "true" = v := Option.some.inj hv
    exact key _ _ (by decide)
  case inr.inr.inr.inr.inr.inr.inr.inr.inr.inr.inr.inr.inr.inr.inl =>
    replace hp : p ∈ [(lit "--no-kill-blank", false)] := hp
    rw [List.mem_singleton] at hp
    subst hp
    obtain rfl : lit "false" = v := Option.some.inj hv
    exact key _ _ (by decide)
  case inr.inr.inr.inr.inr.inr.inr.inr.inr.inl =>
    replace hp : p ∈ [(lit "-f", true), (lit "--config", true)] := hp
    simp only [List.mem_cons, List.not_mem_nil, or_false] at hp
    rcases hp with rfl | rfl <;> cases hf
  case inr.inr.inr.inr.inr.inr.inr.inr.inr.inr.inr.inr.inr.inr.inr.inr.inr.inl =>
    replace hp : p ∈ [(lit "-n", true), (lit "--encoding", true)] := hp
    simp only [List.mem_cons, List.not_mem_nil, or_false] at hp
    rcases hp with rfl | rfl <;> cases hf
  all_goals exact absurd (show (none : Option Str) = some v from hv) (by simp)

/-- C89: It says so about these two. -/
theorem C89_likes (charset config : Str) : ∀ w v, (w, v) ∈ [(lit "--kill-blank", lit "true"), (lit "--no-kill-blank", lit "false")] →
    ∃ line ∈ helpLines charset config, (w, false) ∈ documented line ∧ shownLike line = some v := by
  intro w v hw
  simp only [List.mem_cons, List.not_mem_nil, or_false, Prod.mk.injEq] at hw
  rcases hw with ⟨rfl, rfl⟩ | ⟨rfl, rfl⟩
  · exact ⟨lit "      --kill-blank      Kill leading/trailing blank lines on removal (like -k true)", by simp [helpLines], List.mem_cons_self, by decide +kernel⟩
  · exact ⟨lit "      --no-kill-blank   Retain leading/trailing blank lines on removal (like -k false)", by simp [helpLines], List.mem_cons_self, by decide +kernel⟩

/-- C89: `boxes` without `-d` draws what `boxes -d NAME` draws, if NAME is the first design of the configuration file.  (That file may have parents; they
must be usable in the second run, too, in which more of them may be read.) -/
theorem C89_first_design (m : Machine) (c : CommandLine) (hfirst : c.first ≠ some (lit "-?")) (fuel : Nat) {a : Args}
    (hopts : optionLoop c.options createNewOpt = some (a, false)) (hfiles : UsableFiles m.canRead m.canWrite c.files)
    (hcr : ∀ s, .create s ∉ c.options) (hde : ∀ s, .design s ∉ c.options) (hlist : .list ∉ c.options) (hq : ∀ s, .query s ∉ c.options)
    (hrm : .remove ∉ c.options) (hmend : .mend ∉ c.options)
    {file : Bxs} {d : DesignDef} {ds : List DesignDef} {ps : List Bxs} (h : Loaded m a fuel file d ds ps)
    {own : List DesignDef} {parents : List Bxs} (hown : parseConfigFile (parseEnv m a) m.contents file [] = .ok (d :: own, parents))
    (name : Str) (hname : Called d name) (c' : CommandLine) (hfirst' : c'.first ≠ some (lit "-?")) (hopts' : c'.options = c.options ++ [.design name])
    (hfiles' : c'.files = c.files)
    {d' : DesignDef} {ds' : List DesignDef} {ps' : List Bxs} (h' : Loaded m { a with design := some name, byUser := true } fuel file d' ds' ps') :
    wholeProgram m c' fuel = wholeProgram m c fuel := by
  have hdn : a.design = none := noDesign_none hopts hde
  obtain ⟨s1, s2, s3, -⟩ := C58_switches c.options a hopts
  have hqn : a.query = none := by
    rcases (C58_words c.options a hopts).2.2.2.2.2 with ⟨x, ⟨pre', post', e, -, hno⟩, arg', q, rfl, hq', e'⟩ | ⟨hn, e⟩
    · exact absurd (by rw [e]; simp) (hq arg')
    · exact e
  have hl : a.l = false := by
    cases hb : a.l with
    | false => rfl
    | true => exact absurd (s1.1 hb) hlist
  have hr : a.opt.r = false := by
    cases hb : a.opt.r with
    | false => rfl
    | true => exact absurd (s2.1 hb) (by simp [hrm, hmend])
  have ha' : optionLoop c'.options createNewOpt = some ({ a with design := some name, byUser := true }, false) := by
    rw [hopts']
    exact optionLoop_more (x := .design name) c.options createNewOpt hopts rfl
  have hm : a.opt.mend ≤ 0 := by rw [s3, if_neg hmend]; omega
  have hfull : fullParseRequired (parseEnv m a) = false := by
    unfold fullParseRequired parseEnv
    simp [hdn, hr, hl, hqn]
  obtain ⟨k, -⟩ := parseConfigFile_choice (env := parseEnv m a) hdn hfull name hname hown
  have hd : d' = d := parseConfigFiles_first h'.designs k
  subst hd
  rw [whole_run m c fuel hfirst hopts hfiles hcr hqn hl h, whole_run m c' fuel hfirst' ha' (by rw [hfiles']; exact hfiles) (by
    rw [hopts']
    intro s hs
    simp at hs
    exact hcr s hs) hqn hl h', hfiles']
  rw [run_first (setupOf m a (m.input (named c.files 0)) (d' :: ds) fuel)
    (setupOf m { a with design := some name, byUser := true } (m.input (named c.files 0)) (d' :: ds') fuel) a.opt hm hr d'.core
    (ds.map (·.core)) (ds'.map (·.core)) rfl rfl rfl rfl rfl fuel]
  have hcol : colours c'.options m.terminalColors = colours c.options m.terminalColors := by
    rw [← colour_setting hopts, ← colour_setting ha']
  rw [hcol]

/-- C89: The same, for a configuration file without parents. -/
theorem C89_first_alone (m : Machine) (c : CommandLine) (hfirst : c.first ≠ some (lit "-?")) (fuel : Nat) {a : Args}
    (hopts : optionLoop c.options createNewOpt = some (a, false)) (hfiles : UsableFiles m.canRead m.canWrite c.files)
    (hcr : ∀ s, .create s ∉ c.options) (hde : ∀ s, .design s ∉ c.options) (hlist : .list ∉ c.options) (hq : ∀ s, .query s ∉ c.options)
    (hrm : .remove ∉ c.options) (hmend : .mend ∉ c.options)
    {file : Bxs} {d : DesignDef} {ds : List DesignDef} {ps : List Bxs} (h : Loaded m a fuel file d ds ps)
    {own : List DesignDef} (hown : parseConfigFile (parseEnv m a) m.contents file [] = .ok (d :: own, []))
    (name : Str) (hname : Called d name) (c' : CommandLine) (hfirst' : c'.first ≠ some (lit "-?")) (hopts' : c'.options = c.options ++ [.design name])
    (hfiles' : c'.files = c.files) : wholeProgram m c' fuel = wholeProgram m c fuel := by
  have hdn : a.design = none := noDesign_none hopts hde
  obtain ⟨s1, s2, s3, -⟩ := C58_switches c.options a hopts
  have hqn : a.query = none := by
    rcases (C58_words c.options a hopts).2.2.2.2.2 with ⟨x, ⟨pre', post', e, -, hno⟩, arg', q, rfl, hq', e'⟩ | ⟨hn, e⟩
    · exact absurd (by rw [e]; simp) (hq arg')
    · exact e
  have hl : a.l = false := by
    cases hb : a.l with
    | false => rfl
    | true => exact absurd (s1.1 hb) hlist
  have hr : a.opt.r = false := by
    cases hb : a.opt.r with
    | false => rfl
    | true => exact absurd (s2.1 hb) (by simp [hrm, hmend])
  have hfull : fullParseRequired (parseEnv m a) = false := by
    unfold fullParseRequired parseEnv
    simp [hdn, hr, hl, hqn]
  obtain ⟨k, hnil⟩ := parseConfigFile_choice (env := parseEnv m a) hdn hfull name hname hown
  subst hnil
  refine C89_first_design m c hfirst fuel hopts hfiles hcr hde hlist hq hrm hmend h hown name hname c' hfirst' hopts' hfiles' (d' := d) (ds' := []) (ps' := [])
    ⟨h.found, ?_⟩
  have hne : fuel ≠ 0 := by
    intro e
    have := h.designs
    rw [e] at this
    simp [parseConfigFiles, mergeLoop] at this
  obtain ⟨n, rfl⟩ : ∃ n, fuel = n + 1 := ⟨fuel - 1, by omega⟩
  unfold parseConfigFiles
  rw [mergeLoop, show parseConfigFile (parseEnv m { a with design := some name, byUser := true }) m.contents file [] = .ok ([d], []) from k]
  simp [copyDesigns, recordParentConfigFiles]

/-! ## Examples -/

/-- `boxes` on the machine of the examples; its first design is `dots` -/
example : wholeProgram sampleMachine { options := [] } 20 = wholeProgram sampleMachine { options := [.design (lit "dt")] } 20 := by
  have h1 : discoverConfigFile sampleDb { sampleDisk with optF := none } false = some (some (fileName "/h/.config/boxes/boxes-config")) := by
    decide +kernel
  have h2 : ∃ d, parseConfigFile (parseEnv sampleMachine createNewOpt) sampleMachine.contents (fileName "/h/.config/boxes/boxes-config") [] = .ok ([d], []) ∧
      parseConfigFiles (parseEnv sampleMachine createNewOpt) sampleMachine.contents 20 (fileName "/h/.config/boxes/boxes-config") = some (.ok ([d], [])) ∧
      d.aliases = [lit "dt"] := by
    have k : (match parseConfigFile (parseEnv sampleMachine createNewOpt) sampleMachine.contents (fileName "/h/.config/boxes/boxes-config") [] with
      | .ok ([d], []) => decide (d.aliases = [lit "dt"])
      | _ => false) = true := by decide +kernel
    split at k
    · rename_i d hd
      refine ⟨d, hd, ?_, by simpa using k⟩
      unfold parseConfigFiles
      rw [mergeLoop, hd]
      simp [copyDesigns, recordParentConfigFiles]
    · simp at k
  obtain ⟨d, h3, h4, h5⟩ := h2
  refine (C89_first_alone sampleMachine { options := [] } (by simp) 20 (a := createNewOpt) rfl ⟨by simp, by simp, by simp⟩ (by simp) (by simp) (by simp) (by simp)
    (by simp) (by simp) ⟨h1, h4⟩ h3 (lit "dt") ?_ { options := [.design (lit "dt")] } (by simp) rfl rfl).symm
  exact ⟨lit "dt", by simp [DesignDef.names, h5], rfl⟩

/-- the help text names the configuration file of the examples -/
example : usageLong sampleMachine (lit "UTF-8") =
    some ((helpLines (lit "UTF-8") (lit "/h/.config/boxes/boxes-config")).map (· ++ [0x0a])).flatten := by
  obtain ⟨d, ds, h⟩ : ∃ d ds, parseConfigFiles (parseEnv sampleMachine createNewOpt) sampleMachine.contents 20 (fileName "/h/.config/boxes/boxes-config") =
      some (.ok (d :: ds, [])) := by
    have k : (match parseConfigFiles (parseEnv sampleMachine createNewOpt) sampleMachine.contents 20 (fileName "/h/.config/boxes/boxes-config") with
      | some (.ok (_ :: _, [])) => true
      | _ => false) = true := by decide +kernel
    split at k
    · rename_i d ds hd
      exact ⟨d, ds, hd⟩
    · simp at k
  exact (C89_config sampleMachine (lit "UTF-8") { options := [] } 20 (by simp) (a := createNewOpt) rfl (by simp)).1 (fileName "/h/.config/boxes/boxes-config") d ds []
    ⟨by decide +kernel, h⟩ (by decide +kernel)

/-- a default spelled out -/
example : boxesMain sampleMachine [lit "--align", lit "hlvt", lit "-d", lit "fr"] 20 =
    some (.ok (.output none (lit "  +--*\n  |ab!\n  |c !\n  +==+\n"))) := by
  rw [C89_defaults sampleMachine [] [] (lit "  -a, --align <fmt>     Alignment/positioning of text inside box [default: hlvt]") (by simp [helpLines])
    (lit "--align", true) (by decide +kernel) (lit "hlvt") (by decide +kernel) (by decide +kernel) [lit "-d", lit "fr"] 20 (by simp [lit])]
  decide +kernel

example : ∃ t, printedBy sampleMachine (lit "UTF-8") (lit "2.3.1") [lit "-r", lit "--help", lit "-t", lit "x"] 20 = some (.ok (none, t)) := by
  obtain ⟨t, ht⟩ : ∃ t, usageLong sampleMachine (lit "UTF-8") = some t := Option.isSome_iff_exists.1 (by decide +kernel)
  exact ⟨t, ((C89_help sampleMachine (lit "UTF-8") (lit "2.3.1") [lit "-r", lit "--help", lit "-t", lit "x"] 20 t ht).2 (by simp [lit]) [.remove] [.tabs (lit "x")] _
    rfl).1 rfl⟩

/-- the machine of the examples with a design that has its own settings -/
def settingsDecls : List Decl :=
  [.box (lit "frame") [] (frameItems ++ [.keyword (lit "indent") (lit "none"), .padding [(lit "left", 2)]]) (lit "frame")]

def settingsMachine : Machine := { sampleMachine with contents := fun _ => some settingsDecls }

/-- C89: For `-i` and `-p`, the help text names `box` and `none` as defaults, but a design may have other settings. -/
theorem C89_settings_disagrees :
    boxesMain settingsMachine [] 20 = some (.ok (.output none (lit "+----*\n|  ab!\n|  c !\n+====+\n"))) ∧
    boxesMain settingsMachine [lit "-i", lit "box"] 20 = some (.ok (.output none (lit "  +----*\n  |  ab!\n  |  c !\n  +====+\n"))) ∧
    boxesMain settingsMachine [lit "-p", lit "a0"] 20 = some (.ok (.output none (lit "+--*\n|ab!\n|c !\n+==+\n"))) := by decide +kernel


end Boxes
