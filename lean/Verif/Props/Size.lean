import Verif.Lemmas.Size
import Verif.Props.Ends

/-!
# Property C95: the box has the size that was asked for
-/
namespace Boxes
open Spec ShapeName
set_option linter.unusedSimpArgs false

/-- C95: A side with one elastic shape, of extent one, can be given any extent from the least one. -/
theorem C95_flexible {s1 s2 : List Slot} (h1 : GoodSide s1) (h2 : GoodSide s2) (p1 : period s1 = 1) (p2 : period s2 = 1) (n : Nat)
    (hn : fixedPart s1 < n) (hn' : fixedPart s2 < n) : Common s1 s2 0 n := by
  have key : ∀ s, GoodSide s → period s = 1 → fixedPart s < n → ∃ f, Fills s f ∧ f.sum = n := by
    intro s hs hp hl
    have ho : fixedPart s ∈ offsets s := by
      cases hs with
      | outer l m k hl hm hk => simp [period, Slot.Elastic, Slot.size] at hp; omega
      | left l b c => unfold offsets; split <;> simp_all [Slot.Elastic]
      | mid a l c => unfold offsets; split <;> simp_all [Slot.Elastic]
      | right a b l => unfold offsets; split <;> simp_all [Slot.Elastic]
    obtain ⟨f, f1, f2⟩ := (fills_sum hs).2.2 _ ho (n - fixedPart s) (by omega)
    exact ⟨f, f1, by rw [f2, hp]; omega⟩
  exact ⟨Nat.zero_le _, key s1 h1 p1 hn, key s2 h2 p2 hn'⟩

/-- C95: `-s WxH`, from the command line to the printed text.  The box is at least as large as was asked for; it is exactly that large if the
design allows it (its minimum size is not larger, and its sides can be given that size) and the text has room between the corners.  Sides that
show nothing do not count: those at the top, at the bottom and at the left are not printed; the one at the right consists of the last `right` columns. -/
theorem C95_program (m : Machine) (hdb : Sane m.db) (c : CommandLine) (fuel : Nat) (hfirst : c.first ≠ some (lit "-?")) {a : Args}
    (hopts : optionLoop c.options createNewOpt = some (a, false)) (hfiles : UsableFiles m.canRead m.canWrite c.files)
    (hlist : .list ∉ c.options) (hq : ∀ s, .query s ∉ c.options) (hrm : .remove ∉ c.options) (hmend : .mend ∉ c.options)
    (hcr : ∀ s, .create s ∉ c.options)
    {file : Bxs} {d : DesignDef} {ds : List DesignDef} {ps : List Bxs} (h : Loaded m a fuel file d ds ps)
    (hesc : ∀ f decls, m.contents f = some decls → WellEscaped decls) (hrules : d.reprules = [])
    (hp : ∀ s ∈ m.input (named c.files 0), Readable m.db a.opt.tabstop s) (hne : m.input (named c.files 0) ≠ [])
    {top bottom left right : Nat} (htop : NumberIf (BlankSide m.db d.core [NW, NNW, N, NNE, NE]) (d.core.shape NW).height top)
    (hbottom : NumberIf (BlankSide m.db d.core [SE, SSE, S, SSW, SW]) (d.core.shape SW).height bottom)
    (hleft : NumberIf (BlankSide m.db d.core [SW, WSW, W, WNW, NW]) (d.core.shape NW).width left)
    (hright : NumberIf (BlankSide m.db d.core [NE, ENE, E, ESE, SE]) (d.core.shape NE).width right)
    {r : Res Outcome} (hrun : wholeProgram m c fuel = some r) :
    ∃ out text cols, r = .ok (.output (named c.files 1) text) ∧ PrintedText m.db (colours c.options m.terminalColors) out text ∧
      (∀ p ∈ out, RowOf m.db (if a.opt.indentmode = '\x00' then d.core.indentmode else a.opt.indentmode) (cols + right) p.1) ∧
      (∀ H : Nat, a.opt.reqheight = H → 0 < H → H ≤ out.length ∧
        (d.core.minheight ≤ H → (m.input (named c.files 0)).length + (d.core.shape NW).height + (d.core.shape SW).height ≤ H + top + bottom →
          CanBeHigh d.core (H + top + bottom - ((d.core.shape NW).height + (d.core.shape SW).height)) → out.length = H)) ∧
      (∀ W : Nat, a.opt.reqwidth = W → 0 < W → W ≤ cols ∧
        (d.core.minwidth ≤ W →
          (∀ s ∈ m.input (named c.files 0), ∃ n, FitsIn m.db a.opt.tabstop n s ∧
            n + (d.core.shape NW).width + (d.core.shape NE).width ≤ W + left + right) →
          CanBeWide d.core (W + left + right - ((d.core.shape NW).width + (d.core.shape NE).width)) → cols = W)) := by
  cases fuel with
  | zero =>
    have := h.designs
    simp [parseConfigFiles, mergeLoop] at this
  | succ n =>
    obtain ⟨hr, e⟩ := whole_draws m c n hfirst hopts hfiles hlist hq hrm hmend hcr h hrules
    have hgood := loaded_good m hdb (n + 1) h hesc d List.mem_cons_self
    have hg2 := (C20_adjusted_design m.db a.opt _ hgood {}).1
    have ht := (C37_range c.options a hopts).1
    have hmode : (prepareDesign a.opt d.core).indentmode = (if a.opt.indentmode = '\x00' then d.core.indentmode else a.opt.indentmode) := by
      unfold prepareDesign
      by_cases hi : a.opt.indentmode = '\x00'
      · rw [if_neg (by simpa using hi), if_pos hi]; rfl
      · rw [if_pos hi, if_neg hi]
    rw [e] at hrun
    cases hd : drawOnce m.db a.opt (prepareDesign a.opt d.core) [] m.junk (m.input (named c.files 0)) (n + 1) with
    | none => simp [hd] at hrun
    | some x =>
      obtain ⟨out, text, rfl, g2, g3, g4⟩ := drawing_text m.db hdb a.opt hr ht _ hg2 m.junk _ hp hne (colours c.options m.terminalColors) _ hd
      obtain ⟨out', cols, e', g5, g6, g7⟩ := sized_draw m.db hdb a.opt hr ht _ hgood m.junk _ hp hne _ hd htop hbottom hleft hright
      simp only [Res.ok.injEq] at e'
      subst e'
      rw [hmode] at g5
      refine ⟨out, text, cols, ?_, g4, g5, g6, g7⟩
      simp only [hd, Option.map_some, Res.ok_bind, g3, Option.some.injEq] at hrun
      exact hrun.symm

/-- C95: A line without tabs and escape sequences takes as many columns as its characters. -/
theorem C95_plain_line (db : CharDb) (tabstop : Nat) (s : Str) (h : ∀ c ∈ s, c ≠ 0x09 ∧ c ≠ 0x1b) : FitsIn db tabstop (columns db s) s := by
  rintro q z t v rfl he hv
  have hq : ∀ c ∈ q, c ≠ 0x09 ∧ c ≠ 0x1b := fun c hc => h c (by simp [hc])
  obtain rfl := he.no_tab (fun c hc => (hq c hc).1)
  obtain rfl := text_of_plain (fun c hc => (hq c hc).2) hv
  rw [columns_append]
  omega

/-! ## a case that meets the hypotheses -/

/-- `-d fr -s 10x6` -/
private def sizedArgs : Args := { frArgs with opt := { frArgs.opt with reqwidth := 10, reqheight := 6 } }

private theorem sized_loaded : Loaded sampleMachine sizedArgs 20 (fileName "/h/.config/boxes/boxes-config") frDesign [] [] :=
  loaded_again (Nat.le_refl 20) frDesign_loaded sampleMachine.input rfl rfl rfl rfl

private theorem sampleMachine_escaped : ∀ f decls, sampleMachine.contents f = some decls → WellEscaped decls := by
  intro f decls h s hs
  exact ⟨s, Spec.Text.plain fun c hc => (sampleMachine_plain f decls h s hs c hc).1⟩

private theorem fr_sides : ∀ side ∈ [northSide, eastSide, southSide, westSide], ¬ BlankSide sampleDb frDesign.core side := by
  intro side hs hb
  have hg := loaded_good sampleMachine sampleDb_sane 20 frDesign_loaded sampleMachine_escaped frDesign List.mem_cons_self
  have := (emptySide_iff sampleDb_sane hg.shapes side).2 hb
  have hn : ∀ side ∈ [northSide, eastSide, southSide, westSide], emptySide frDesign.core.shape side = false := by decide +kernel
  rw [hn side hs] at this
  exact absurd this (by decide)

/-- The printed box has 6 lines of 10 columns. -/
example {r : Res Outcome} (hrun : wholeProgram sampleMachine { options := [.design (lit "fr"), .size (lit "10x6")] } 20 = some r) :
    ∃ out text, r = .ok (.output none text) ∧ PrintedText sampleDb false out text ∧ out.length = 6 ∧ ∀ p ∈ out, RowOf sampleDb 'b' 10 p.1 := by
  have h1 : slots (·.width) frDesign.core [NNW, N, NNE] = [none, some (1, true), none] := by decide +kernel
  have h2 : slots (·.width) frDesign.core [SSE, S, SSW] = [none, some (1, true), none] := by decide +kernel
  have h3 : slots (·.height) frDesign.core [WSW, W, WNW] = [none, some (1, true), none] := by decide +kernel
  have h4 : slots (·.height) frDesign.core [ENE, E, ESE] = [none, some (1, true), none] := by decide +kernel
  have hc : ∀ n, 0 < n → Common [none, some (1, true), none] [none, some (1, true), none] 0 n := by
    intro n hn
    have hg : GoodSide [none, some (1, true), none] := .mid none 1 none (by decide) (by decide) (by decide) (by simp)
    exact C95_flexible hg hg (by decide) (by decide) n hn hn
  have hsz : (frDesign.core.shape NW).height = 1 ∧ (frDesign.core.shape SW).height = 1 ∧ (frDesign.core.shape NW).width = 1 ∧
      (frDesign.core.shape NE).width = 1 ∧ frDesign.core.minheight ≤ 6 ∧ frDesign.core.minwidth ≤ 10 := by decide +kernel
  obtain ⟨z1, z2, z3, z4, z5, z6⟩ := hsz
  have hnone : ∀ side ∈ [northSide, eastSide, southSide, westSide], ∀ n, NumberIf (BlankSide sampleDb frDesign.core side) n 0 :=
    fun side hs n => ⟨fun h => absurd h (fr_sides side hs), fun _ => rfl⟩
  have hin : sampleMachine.input none = [lit "  ab\n", lit "  c\n"] := rfl
  obtain ⟨out, text, cols, g1, g2, g3, g4, g5⟩ := C95_program sampleMachine sampleDb_sane { options := [.design (lit "fr"), .size (lit "10x6")] } 20 (by decide)
    (a := sizedArgs) rfl ⟨by simp, by simp, by simp⟩ (by simp) (by simp) (by simp) (by simp) (by simp) sized_loaded sampleMachine_escaped (by decide +kernel)
    (by
      show ∀ s ∈ [lit "  ab\n", lit "  c\n"], Readable sampleDb 8 s
      intro s hs
      have hs' : ∀ s ∈ [lit "  ab\n", lit "  c\n"], (∀ c ∈ s, c ≠ 0x1b ∧ c ≠ 0x09) ∧ s.length < 16370 := by decide
      refine ⟨s, s, Spec.Text.plain (fun c hc => ((hs' s hs).1 c hc).1), ?_, expand_plain 8 s 0 (fun c hc => ((hs' s hs).1 c hc).2), (hs' s hs).2⟩
      simp only [List.mem_cons, List.not_mem_nil, or_false] at hs
      rcases hs with rfl | rfl <;> exact ⟨by decide, by unfold NarrowBlanks; decide⟩) (by simp [hin, named])
    (hnone northSide (by simp) _) (hnone southSide (by simp) _) (hnone westSide (by simp) _) (hnone eastSide (by simp) _) hrun
  refine ⟨out, text, g1, g2, ?_, ?_⟩
  · refine (g4 6 rfl (by decide)).2 z5 ?_ ?_
    · rw [z1, z2]; decide
    · unfold CanBeHigh; rw [h3, h4, z1, z2]; exact hc _ (by decide)
  · have e : cols = 10 := by
      refine (g5 10 rfl (by decide)).2 z6 ?_ ?_
      · show ∀ s ∈ [lit "  ab\n", lit "  c\n"], _
        rw [z3, z4]
        intro s hs
        have hs' : ∀ s ∈ [lit "  ab\n", lit "  c\n"], (∀ c ∈ s, c ≠ 0x09 ∧ c ≠ 0x1b) ∧ columns sampleDb s + 1 + 1 ≤ 10 + 0 + 0 := by decide +kernel
        exact ⟨_, C95_plain_line _ _ s (hs' s hs).1, (hs' s hs).2⟩
      · unfold CanBeWide; rw [h1, h2, z3, z4]; exact hc _ (by decide)
    subst e
    intro p hp
    exact g3 p hp

end Boxes
