import Verif.Lemmas.Ends

/-!
# C76: the program ends unless it has to draw a box that cannot be closed
-/
namespace Boxes
open Spec ShapeName
set_option linter.unusedSimpArgs false

theorem accepted_sides {env : ParseEnv} {decls : List Decl} {ps ps' : List Bxs} {ds : List DesignDef}
    (h : parseConfig env decls ps = .ok (ds, ps')) : ∀ d ∈ ds, Unasked d.core ∧ GoodSides d.core := by
  intro d hd
  obtain ⟨h1, h2, h3⟩ := parseConfig_all (Q := fun _ => True) (fun _ => trivial) (fun _ _ _ _ _ => trivial) h d hd
  have g := geometry_of h1 h2 h3
  have hw : ∀ n, Present (d.core.shape n) → 0 < (d.core.shape n).width := fun n hp => hp.2.1
  have hh : ∀ n, Present (d.core.shape n) → 0 < (d.core.shape n).height := fun n hp => hp.2.2
  exact ⟨fun n => ⟨(h1 n).left, (h1 n).right⟩, goodSide_of hw g.elastic.exist g.elastic.top _ rfl,
    goodSide_of hw g.elastic.exist g.elastic.bottom _ rfl, goodSide_of hh g.elastic.exist g.elastic.left _ rfl,
    goodSide_of hh g.elastic.exist g.elastic.right _ rfl⟩

theorem built_closable {db : CharDb} {cld : Str} {dd : DesignDef} (h : buildDesign db cld = .ok dd) : Closable db dd.core := by
  obtain ⟨h1, h2, h3, h4, h5⟩ := built_sides h
  have hg : GoodSide [none, some (1, true), none] := .mid none 1 none (by decide) (by decide) (by decide) (by simp)
  have hm : ∃ n, Common [none, some (1, true), none] [none, some (1, true), none] 0 n := C11_unit_elastic hg hg (Or.inl (by decide)) 0
  refine ⟨dd.core, h1, coherent_refl db h1, ⟨?_, ?_, ?_, ?_⟩, ⟨?_, ?_⟩⟩
  · rw [h2]; exact hg
  · rw [h3]; exact hg
  · rw [h4]; exact hg
  · rw [h5]; exact hg
  · rw [h2, h3]; exact hm
  · rw [h4, h5]; exact hm

/-- the parents that can be named in these declarations -/
def allParents (env : ParseEnv) (texts : List (List Decl)) : List Str :=
  texts.flatMap (fun decls => decls.flatMap (fun x => match x with
    | .parent p => (resolveParent env p).toList.map (·.memory)
    | _ => []))

theorem parents_end (env : ParseEnv) (contents : Bxs → Option (List Decl)) (texts : List (List Decl))
    (ht : ∀ file decls, contents file = some decls → decls ∈ texts) (file : Bxs) : ∃ fuel r, parseConfigFiles env contents fuel file = some r := by
  have := C33_ends env contents (allParents env texts) (by
    intro file decls path p h1 h2 h3
    unfold allParents
    rw [List.mem_flatMap]
    refine ⟨decls, ht _ _ h1, List.mem_flatMap.2 ⟨.parent path, h2, ?_⟩⟩
    simp [h3]) _ (Nat.lt_succ_self _) file
  cases h : parseConfigFiles env contents ((allParents env texts).length + 1) file with
  | none => exact absurd h this
  | some r => exact ⟨_, r, h⟩

theorem loadDesigns_ends (m : Machine) (a : Args) (texts : List (List Decl)) (htexts : ∀ file decls, m.contents file = some decls → decls ∈ texts)
    (file : Bxs) (hmeet : ∀ fuel ds ps, parseConfigFiles (parseEnv m a) m.contents fuel file = some (.ok (ds, ps)) → ∀ d ∈ ds, SidesMeet d.core) :
    ∃ fuel r, loadDesigns m a file fuel = some r ∧ ∀ ds ps di, r = .ok (ds, ps, di) → ∀ d ∈ ds, Closable m.db d.core := by
  unfold loadDesigns
  cases hc : a.cld with
  | some cld =>
    refine ⟨0, _, rfl, ?_⟩
    intro ds ps di h
    simp only [Res.bind_eq_ok, Res.ok.injEq, Prod.mk.injEq] at h
    obtain ⟨d, hd, rfl, -, -⟩ := h
    intro e he
    obtain rfl := List.mem_singleton.1 he
    exact built_closable hd
  | none =>
    obtain ⟨f, r, h⟩ := parents_end (parseEnv m a) m.contents texts htexts file
    refine ⟨f, _, by simp only [h, Option.map_some]; rfl, ?_⟩
    intro ds ps di e
    simp only [Res.bind_eq_ok, Res.ok.injEq, Prod.mk.injEq] at e
    obtain ⟨x, rfl, f', -, rfl, rfl, rfl⟩ := e
    intro d hd
    obtain ⟨f, decls, known, ds', ps', -, -, h2, h3⟩ := all_parsed _ _ _ _ _ _ h d hd
    obtain ⟨k1, k2⟩ := accepted_sides h2 d h3
    exact ⟨d.core, k1, coherent_refl _ k1, k2, hmeet _ _ _ h d hd⟩

theorem mainTask_ends (m : Machine) (a : Args) (file : Bxs) (ds : List DesignDef) (ps : List Bxs) (di : Bxs)
    (hd : ∀ d ∈ ds, Closable m.db d.core) : ∃ fuel r, mainTask m a file ds ps di fuel = some r := by
  unfold mainTask
  dsimp only
  split
  · refine ⟨0, ?_⟩
    split <;> exact ⟨_, rfl⟩
  split
  · exact ⟨0, _, rfl⟩
  · obtain ⟨f, r, h⟩ := runProgram_ends (s := { db := m.db, junk := m.junk, pieces := m.input a.infile, byUser := a.byUser, rules := rulesOf m (·.reprules) ds, revRules := rulesOf m (·.revrules) ds, fuel := 0 }) a.opt (ds.map (·.core)) (by
      intro d h
      obtain ⟨e, he, rfl⟩ := List.mem_map.1 h
      exact hd e he)
    exact ⟨f, _, Option.map_eq_some_iff.2 ⟨r, h, rfl⟩⟩

/-- C76: Whatever the arguments and the input are, the program ends, if there are finitely many texts of configuration files and if, for
every design that is read from them, opposite sides can have the same extent. -/
theorem C76_ends (m : Machine) (c : CommandLine) (texts : List (List Decl)) (htexts : ∀ file decls, m.contents file = some decls → decls ∈ texts)
    (hmeet : ∀ a fuel file d ds ps, optionLoop c.options createNewOpt = some (a, false) → Loaded m a fuel file d ds ps →
      ∀ e ∈ d :: ds, SidesMeet e.core) :
    ∃ fuel r, wholeProgram m c fuel = some r := by
  by_cases hfirst : c.first = some (lit "-?")
  · exact ⟨0, _, (C69_help m c 0).1.2 (Or.inl hfirst)⟩
  cases ho : optionLoop c.options createNewOpt with
  | none => exact ⟨0, _, whole_refused m c 0 hfirst ho⟩
  | some q =>
    obtain ⟨a, done⟩ := q
    cases done with
    | true =>
      obtain ⟨pre, post, b, e1, e2⟩ := optionLoop_early _ _ _ ho
      rcases e2 with ⟨e, -⟩ | ⟨e, -⟩
      · exact ⟨0, _, (C69_help m c 0).1.2 (Or.inr ⟨pre, post, b, e, e1⟩)⟩
      · exact ⟨0, _, (C69_help m c 0).2.2 ⟨hfirst, pre, post, b, e, e1⟩⟩
    | false =>
      by_cases hu : UsableFiles m.canRead m.canWrite c.files
      · simp only [whole_accepted m c _ hfirst ho hu]
        have hm := hmeet a
        unfold afterOptions
        cases hf : discoverConfigFile m.db { m.surroundings with optF := a.f } false with
        | none => exact ⟨0, _, by simp only [hf]; rfl⟩
        | some o =>
          cases o with
          | none => exact ⟨0, _, by simp only [hf]; rfl⟩
          | some file =>
            simp only [hf]
            obtain ⟨f, r, h⟩ := loadDesigns_ends m a texts htexts file (fun fuel ds ps h d hd => by
              cases ds with
              | nil => simp at hd
              | cons e es => exact hm fuel file e es ps ho ⟨hf, h⟩ d hd)
            have h' : loadDesigns m { a with infile := named c.files 0, outfile := named c.files 1 } file f = some r := h.1
            cases r with
            | fail n => exact ⟨f, _, by rw [h']⟩
            | ub => exact ⟨f, _, by rw [h']⟩
            | ok q =>
              obtain ⟨ds, ps, di⟩ := q
              obtain ⟨g, r, hg⟩ := mainTask_ends m { a with infile := named c.files 0, outfile := named c.files 1 } file ds ps di (h.2 ds ps di rfl)
              refine ⟨max f g, ?_⟩
              rw [loadDesigns_more _ _ _ (by omega : f ≤ max f g) h']
              simp only
              rw [mainTask_more _ _ _ _ _ _ (by omega : g ≤ max f g) hg]
              cases r <;> exact ⟨_, rfl⟩
      · exact ⟨0, _, whole_files m c 0 hfirst ho hu⟩

/-- sides for which a box was computed -/
theorem generated_meet {db : CharDb} {d : Design} (hg : GoodDesign db d) {i : Input} {fuel : Nat} {box : Sides Shape}
    (h : generateBox db d i fuel = some (.ok box)) : SidesMeet d := by
  unfold generateBox at h
  cases h1 : horizGenerate db d i.maxline fuel with
  | none => rw [h1] at h; simp at h
  | some r =>
    rw [h1] at h
    cases r with
    | fail n => simp at h
    | ub => simp at h
    | ok q =>
      obtain ⟨t, b⟩ := q
      simp only [Option.map_eq_some_iff] at h
      obtain ⟨y, h2, -⟩ := h
      unfold horizGenerate at h1
      unfold vertGenerate at h2
      simp only [Option.map_eq_some_iff] at h1 h2
      obtain ⟨x1, h1, -⟩ := h1
      obtain ⟨x2, h2, -⟩ := h2
      exact ⟨(common_any hg.top hg.bottom _ _).1 ((C11_horizontal_iff d _ hg.top hg.bottom hg.minwidth).1 ⟨_, _, h1⟩),
        (common_any hg.left hg.right _ _).1 ((C11_vertical_iff d _ hg.left hg.right hg.minheight).1 ⟨_, _, h2⟩)⟩

theorem Spec.SidesMeet.reshape {d e : Design} (h : SidesMeet d) (he : e.shape = d.shape) : SidesMeet e := by
  have : ∀ size l, slots size e l = slots size d l := by intro size l; unfold slots; rw [he]
  exact ⟨by rw [this, this]; exact h.horizontal, by rw [this, this]; exact h.vertical⟩

theorem drawOnce_more (db : CharDb) (opt : Opt) (d : Design) (rules : List Subst) (junk : Nat) (pieces : List Str) {f f' : Nat}
    (hf : f ≤ f') {r : Res (List (Bxs × Str))} (h : drawOnce db opt d rules junk pieces f = some r) :
    drawOnce db opt d rules junk pieces f' = some r := by
  unfold drawOnce at h ⊢
  split at h
  · exact h
  · exact h
  split at h
  · rename_i hn; rw [if_pos hn]; exact h
  · rename_i hn; rw [if_neg hn]; exact handleGenerateBox_more _ _ _ _ hf h

theorem drawOnce_ends {db : CharDb} {d : Design} (hg : GoodSides d) (hm : SidesMeet d) (opt : Opt) (rules : List Subst) (junk : Nat) (pieces : List Str) :
    ∃ fuel r, drawOnce db opt d rules junk pieces fuel = some r := by
  unfold drawOnce
  split
  · exact ⟨0, _, rfl⟩
  · exact ⟨0, _, rfl⟩
  split
  · exact ⟨0, _, rfl⟩
  · rename_i i _ _
    have e : (adjustSizeAndPadding opt d i).shape = d.shape := (C21_padding opt d i).2.2.1
    have hs : ∀ size l, slots size (adjustSizeAndPadding opt d i) l = slots size d l := by intro size l; unfold slots; rw [e]
    obtain ⟨f, r, h⟩ := generateBox_ends db (d := adjustSizeAndPadding opt d i)
      ⟨by rw [hs]; exact hg.top, by rw [hs]; exact hg.bottom, by rw [hs]; exact hg.left, by rw [hs]; exact hg.right⟩ (hm.reshape e) i
    exact ⟨f, _, by unfold handleGenerateBox; rw [h]; rfl⟩

/-- C76: A box is drawn around a text exactly if the sides of the design can be closed; otherwise the program does not end. -/
theorem C76_drawing (m : Machine) (hdb : Sane m.db) (c : CommandLine) (hfirst : c.first ≠ some (lit "-?")) {a : Args}
    (hopts : optionLoop c.options createNewOpt = some (a, false)) (hfiles : UsableFiles m.canRead m.canWrite c.files)
    (hlist : .list ∉ c.options) (hq : ∀ s, .query s ∉ c.options) (hrm : .remove ∉ c.options) (hmend : .mend ∉ c.options)
    (hcr : ∀ s, .create s ∉ c.options)
    {fuel : Nat} {file : Bxs} {d : DesignDef} {ds : List DesignDef} {ps : List Bxs} (h : Loaded m a fuel file d ds ps)
    (hesc : ∀ f decls, m.contents f = some decls → WellEscaped decls) (hrules : d.reprules = [])
    (hp : ∀ s ∈ m.input (named c.files 0), Readable m.db a.opt.tabstop s) (hne : m.input (named c.files 0) ≠ []) :
    (SidesMeet d.core → ∃ fuel' text, wholeProgram m c fuel' = some (.ok (.output (named c.files 1) text))) ∧
    (¬ SidesMeet d.core → ∀ fuel', wholeProgram m c fuel' = none) := by
  have hgood := loaded_good m hdb fuel h hesc d List.mem_cons_self
  have hloaded : ∀ f', fuel ≤ f' → Loaded m a f' file d ds ps := fun f' hf => ⟨h.found, parseConfigFiles_more _ _ hf _ h.designs⟩
  have hprep : (prepareDesign a.opt d.core).shape = d.core.shape := by unfold prepareDesign; split <;> rfl
  constructor
  · intro hm
    obtain ⟨s1, s2, s3, -⟩ := C58_switches c.options a hopts
    have hqn : a.query = none := by
      rcases (C58_words c.options a hopts).2.2.2.2.2 with ⟨x, ⟨pre', post', e, -, hno⟩, arg', q, rfl, hq', e'⟩ | ⟨hn, e⟩
      · exact absurd (by rw [e]; simp) (hq arg')
      · exact e
    have hmn : a.opt.mend = 0 := by rw [s3, if_neg hmend]
    have hrn : a.opt.r = false := by
      cases hb : a.opt.r with
      | false => rfl
      | true => exact absurd (s2.1 hb) (by simp [hrm, hmend])
    have hln : a.l = false := by
      cases hb : a.l with
      | false => rfl
      | true => exact absurd (s1.1 hb) hlist
    have hs : ∀ size l, slots size (prepareDesign a.opt d.core) l = slots size d.core l := by intro size l; unfold slots; rw [hprep]
    obtain ⟨f, r, hf⟩ := drawOnce_ends (db := m.db) (d := prepareDesign a.opt d.core)
      ⟨by rw [hs]; exact hgood.top, by rw [hs]; exact hgood.bottom, by rw [hs]; exact hgood.left, by rw [hs]; exact hgood.right⟩
      (hm.reshape hprep) a.opt ((d.reprules).map m.substitution) m.junk (m.input (named c.files 0))
    have hl := hloaded (max fuel f + 1) (by omega)
    obtain ⟨r', hr'⟩ : ∃ r', wholeProgram m c (max fuel f + 1) = some r' := by
      rw [whole_run m c _ hfirst hopts hfiles hcr hqn hln hl, run_draw _ _ hmn hrn]
      have : drawOnce m.db a.opt (prepareDesign a.opt d.core) ((d.reprules).map m.substitution) m.junk (m.input (named c.files 0)) (max fuel f + 1) = some r :=
        drawOnce_more _ _ _ _ _ _ (by omega) hf
      simp only [setupOf, rulesOf, List.getElem?_cons_zero]
      rw [this]
      simp only [Option.map_some]
      split
      · rename_i e; simp at e
      all_goals exact ⟨_, rfl⟩
    obtain ⟨out, text, e, -⟩ := C69_drawing m hdb c _ hfirst hopts hfiles hlist hq hrm hmend hcr hl hesc hrules hp hne hr'
    exact ⟨_, text, hr'.trans (congrArg some e)⟩
  · intro hm f'
    cases hr : wholeProgram m c f' with
    | none => rfl
    | some r =>
      exfalso
      have hl := hloaded (max fuel f') (by omega)
      have hr' := C69_bounds m c (by omega : f' ≤ max fuel f') hr
      obtain ⟨out, text, -, hd, -⟩ := C69_drawing m hdb c _ hfirst hopts hfiles hlist hq hrm hmend hcr hl hesc hrules hp hne hr'
      obtain ⟨j, d', box, us, ls, above, below, lp, rp, s, e, rfl, hb, -⟩ := hd
      have g1 := (C20_adjusted_design m.db a.opt _ hgood {}).1
      have g2 := (C20_adjusted_design m.db a.opt _ g1 j).2
      exact hm ((generated_meet g2 hb).reshape (((C21_padding _ _ _).2.2.1).trans hprep).symm)

/-! ## The hypotheses can be met, and a program that never ends -/

theorem sampleMachine_texts : ∀ file decls, sampleMachine.contents file = some decls →
    decls ∈ [[Decl.box (lit "dots") [lit "dt"] minimalItems (lit "dots"), .box (lit "frame") [lit "fr"] frameItems (lit "frame")]] := by
  intro f decls h
  have h' : (if f.memory = lit "/h/.config/boxes/boxes-config" then
      some [Decl.box (lit "dots") [lit "dt"] minimalItems (lit "dots"), .box (lit "frame") [lit "fr"] frameItems (lit "frame")] else none) = some decls := h
  split at h'
  · rw [Option.some.injEq] at h'
    exact List.mem_singleton.2 h'.symm
  · simp at h'

theorem frDesign_meets : SidesMeet frDesign.core := by
  have hg : GoodSide [none, some (1, true), none] := .mid none 1 none (by decide) (by decide) (by decide) (by simp)
  have hm : ∃ n, Common [none, some (1, true), none] [none, some (1, true), none] 0 n := C11_unit_elastic hg hg (Or.inl (by decide)) 0
  have h1 : slots (·.width) frDesign.core [NNW, N, NNE] = [none, some (1, true), none] := by decide +kernel
  have h2 : slots (·.width) frDesign.core [SSE, S, SSW] = [none, some (1, true), none] := by decide +kernel
  have h3 : slots (·.height) frDesign.core [WSW, W, WNW] = [none, some (1, true), none] := by decide +kernel
  have h4 : slots (·.height) frDesign.core [ENE, E, ESE] = [none, some (1, true), none] := by decide +kernel
  exact ⟨by rw [h1, h2]; exact hm, by rw [h3, h4]; exact hm⟩

theorem loaded_unique {m : Machine} {a : Args} {f f' : Nat} {file file' : Bxs} {d d' : DesignDef} {ds ds' : List DesignDef} {ps ps' : List Bxs}
    (h : Loaded m a f file d ds ps) (h' : Loaded m a f' file' d' ds' ps') : d = d' ∧ ds = ds' := by
  have e := h.found.symm.trans h'.found
  simp only [Option.some.injEq] at e
  subst e
  have e := (parseConfigFiles_more _ _ (by omega : f ≤ max f f') _ h.designs).symm.trans
    (parseConfigFiles_more _ _ (by omega : f' ≤ max f f') _ h'.designs)
  simp only [Option.some.injEq, Res.ok.injEq, Prod.mk.injEq, List.cons.injEq] at e
  exact e.1

/-- the program ends for every text from which the box is removed, whatever the box looks like -/
example (input : Option Str → List Str) : ∃ fuel r, wholeProgram { sampleMachine with input := input } { options := [.design (lit "fr"), .remove] } fuel = some r := by
  refine C76_ends _ _ _ sampleMachine_texts ?_
  intro a fuel file d ds ps ho hl
  have ho' : optionLoop [.design (lit "fr"), .remove] createNewOpt = some ({ frArgs with opt := { frArgs.opt with r := true } }, false) := rfl
  have e := ho.symm.trans ho'
  simp only [Option.some.injEq, Prod.mk.injEq, and_true] at e
  subst e
  obtain ⟨rfl, rfl⟩ := loaded_unique (loaded_again (a' := { frArgs with opt := { frArgs.opt with r := true } }) (Nat.le_refl 20) frDesign_loaded
    input rfl rfl rfl rfl) hl
  intro e he
  obtain rfl := List.mem_singleton.1 he
  exact frDesign_meets

/-- a configuration with one design, whose top side and bottom side never have the same width -/
def endlessMachine : Machine :=
  { sampleMachine with
    contents := fun b => if b.memory = lit "/h/.config/boxes/boxes-config" then some [.box (lit "endless") [] endlessItems (lit "endless")] else none }

def endlessDesign : DesignDef :=
  match parseConfigFiles (parseEnv endlessMachine createNewOpt) endlessMachine.contents 20 (fileName "/h/.config/boxes/boxes-config") with
  | some (.ok (d :: _, _)) => d
  | _ => { name := [], core := sampleDesign }

theorem endless_loaded : Loaded endlessMachine createNewOpt 20 (fileName "/h/.config/boxes/boxes-config") endlessDesign [] [] where
  found := by
    have h1 : (discoverConfigFile sampleDb { sampleDisk with optF := none } false) = some (some (fileName "/h/.config/boxes/boxes-config")) := by
      decide +kernel
    exact h1
  designs := by
    have h2 : (match parseConfigFiles (parseEnv endlessMachine createNewOpt) endlessMachine.contents 20 (fileName "/h/.config/boxes/boxes-config") with
        | some (.ok ([_], [])) => true
        | _ => false) = true := by decide +kernel
    unfold endlessDesign
    split at h2
    · rename_i d h
      rw [h]
    · simp at h2

/-- C76: A design file that the program accepts without complaint, with which it never finishes drawing a box. -/
theorem C76_never_ends_disagrees : ∀ fuel, wholeProgram endlessMachine {} fuel = none := by
  have hw : ∀ f decls, endlessMachine.contents f = some decls → decls = [.box (lit "endless") [] endlessItems (lit "endless")] := by
    intro f decls h
    have h' : (if f.memory = lit "/h/.config/boxes/boxes-config" then some [Decl.box (lit "endless") [] endlessItems (lit "endless")] else none) =
      some decls := h
    split at h'
    · rw [Option.some.injEq] at h'
      exact h'.symm
    · simp at h'
  have hpl : ∀ v, 0x1b ∉ v → ∃ w, Spec.Text v w := fun v h => ⟨v, Spec.Text.plain (fun c hc e => h (e ▸ hc))⟩
  refine (C76_drawing endlessMachine sampleDb_sane {} (by simp) (a := createNewOpt) rfl ⟨by simp, by simp, by simp⟩ (by simp) (by simp) (by simp) (by simp)
    (by simp) endless_loaded ?_ (by decide +kernel) ?_ (by decide +kernel)).2 ?_
  · intro f decls h
    rw [hw f decls h]
    intro s hs
    exact hpl s (by
      have : ∀ s ∈ fileTexts [.box (lit "endless") [] endlessItems (lit "endless")], 0x1b ∉ s := by decide +kernel
      exact this s hs)
  · show ∀ s ∈ [lit "  ab\n", lit "  c\n"], Readable sampleDb 8 s
    intro s hs
    refine ⟨s, s, ?_, ?_, ?_, ?_⟩ <;> simp only [List.mem_cons, List.not_mem_nil, or_false] at hs <;> rcases hs with rfl | rfl
    · exact Spec.Text.plain (by decide)
    · exact Spec.Text.plain (by decide)
    · exact ⟨by decide, by unfold NarrowBlanks; decide⟩
    · exact ⟨by decide, by unfold NarrowBlanks; decide⟩
    · repeat first | exact Expand.nil _ | refine Expand.char _ (by decide) ?_
    · repeat first | exact Expand.nil _ | refine Expand.char _ (by decide) ?_
    · decide
    · decide
  · intro h
    have h1 : slots (·.width) endlessDesign.core [NNW, N, NNE] = [none, some (2, true), none] := by decide +kernel
    have h2 : slots (·.width) endlessDesign.core [SSE, S, SSW] = [none, some (2, true), some (1, false)] := by decide +kernel
    have h := h.horizontal
    rw [h1, h2, common_iff (.mid none 2 none (by decide) (by decide) (by decide) (by decide))
      (.mid none 2 (some (1, false)) (by decide) (by decide) (by decide) (by decide))] at h
    exact absurd h (by decide)

end Boxes
