import Verif.Lemmas.Nested

/-!
# Boxes in boxes (C86)
-/

set_option linter.unusedSimpArgs false

namespace Boxes
open Boxes.Spec ShapeName

/-- A command that draws a box which can be removed again by the same command with -r: a design is chosen by name, nothing is said about
alignment or size, standard input and output are used; the design is restorable and has only spaces for blanks, there are no rules for
replacement; the indentation is kept. -/
structure Frames (m : Machine) (fuel : Nat) (eol : Str) (c : CommandLine) : Prop where
  draws : DrawsWith c
  files : c.files = []
  settings : ∃ a file d ds ps, optionLoop c.options createNewOpt = some (a, false) ∧ (a.opt.tabexp ≠ 'u' ∧ a.opt.tabexp ≠ 'k') ∧ a.opt.eol = eol ∧
    a.opt.killblank ≠ 0 ∧ Loaded m a fuel file d ds ps ∧ Restorable m.db d.core ∧ OnlySpaces m.db d.core ∧ d.reprules = [] ∧ d.revrules = [] ∧
    ((if a.opt.indentmode = '\x00' then d.core.indentmode else a.opt.indentmode) = 't' ∨
      (if a.opt.indentmode = '\x00' then d.core.indentmode else a.opt.indentmode) = 'b')

theorem plainText_pieces {db : CharDb} {eol text : Str} {lines : List (Str × Str)} (heol : eol = [0x0a] ∨ eol = [0x0d, 0x0a])
    (h : PlainText db eol text lines) : (∀ p ∈ lines, PlainLine db p.1 ∧ LineEnd p.2) ∧ ReadInLines text (lines.map (fun p => p.1 ++ p.2)) := by
  have hend : ∀ p ∈ lines, LineEnd p.2 := by
    intro p hp
    obtain ⟨x, hx⟩ := List.getElem?_of_mem hp
    rcases h.ends x p hx with g | g
    · rw [g]; exact .inr heol
    · exact .inl g.2
  refine ⟨fun p hp => ⟨(h.plain p hp).1, hend p hp⟩, ?_⟩
  have := readInLines_rows (rows := lines) (fun p hp => ⟨fun hc => ((h.plain p hp).1.chars _ hc).2.1 rfl, (h.plain p hp).2, hend p hp⟩) (by
    intro x p hx hp
    rcases h.ends x p hp with g | g
    · rw [g]; rcases heol with e | e <;> simp [e]
    · omega)
  rw [h.whole] at this
  exact this

/-- one box: what is printed is a plain text again, and the box can be removed -/
theorem framed_once (m : Machine) (hdb : Sane m.db) (hbr : BreaksSane m.db) (fuel : Nat) {eol : Str} (heol : eol = [0x0a] ∨ eol = [0x0d, 0x0a])
    {c : CommandLine} (hc : Frames m fuel eol c) {text text' : Str} {lines : List (Str × Str)} (hl : PlainText m.db eol text lines)
    (hrun : Filters m fuel c text text') {pieces' : List Str} (hp' : ReadInLines text' pieces') (hshort : ∀ p ∈ pieces', p.length < 16360) :
    (∃ lines', PlainText m.db eol text' lines') ∧ Filters m fuel (undo c) text' text := by
  obtain ⟨pieces, hp, -, hrun⟩ := hrun
  obtain ⟨hlines, hread⟩ := plainText_pieces heol hl
  obtain rfl := readInLines_unique _ _ _ hp hread
  obtain ⟨a, file, d, ds, ps, hopts, htab, rfl, hkill, hload, hd, hsp, hrules, hrev, hmode⟩ := hc.settings
  have hload' : Loaded { m with input := fun _ => lines.map (fun p => p.1 ++ p.2) } a fuel file d ds ps := { found := hload.found, designs := hload.designs }
  have hfiles : UsableFiles m.canRead m.canWrite c.files := by rw [hc.files]; exact ⟨by simp, by simp, by simp⟩
  have hname : ∀ k, named c.files k = none := by intro k; rw [hc.files]; simp [named]
  constructor
  · obtain ⟨n, out, text'', rfl, h1, h2, h3, -⟩ := piped_first { m with input := fun _ => lines.map (fun p => p.1 ++ p.2) } hdb hbr c hc.draws fuel hopts hfiles
      htab heol hload' hd hrules lines hlines hl.nonempty rfl hrun
    obtain rfl : text' = text'' := by simp only [Res.ok.injEq, Outcome.output.injEq] at h2; exact h2.2
    obtain rfl := readInLines_unique _ _ _ hp' h3
    obtain ⟨ho, hm, -⟩ := draws_opts hc.draws hopts htab heol
    obtain ⟨r', k1, k2⟩ := run_drawn _ a.opt (by rw [hm]; decide) ho.draws d.core (ds.map (·.core)) n h1
    have k1' : drawOnce m.db a.opt (prepareDesign a.opt d.core) [] m.junk (lines.map (fun p => p.1 ++ p.2)) (n + 1) = some r' := by
      rw [← k1]
      show _ = drawOnce m.db a.opt (prepareDesign a.opt d.core) (rulesOf _ (fun d => d.reprules) (d :: ds) 0) m.junk _ (n + 1)
      simp only [rulesOf, List.getElem?_cons_zero, hrules, List.map_nil]
      rfl
    have hd1 := restorable_prepared a.opt hd
    obtain ⟨out', n1, above, below, w, rfl, -, -, i3, i4⟩ := drawn_rows m.db hdb hbr a.opt ho _ hd1 m.junk lines hlines hl.nonempty (n + 1) k1'
    have hlen : out' ≠ [] := by
      intro h0
      have := i3.count
      rw [h0] at this
      have h1 : 0 < ((prepareDesign a.opt d.core).shape NE).height := (hd1.recognisable.ready.good.corner NE (by simp)).2.2
      simp at this; omega
    obtain rfl : out = out' := by have := k2 out' rfl hlen; simpa using this
    refine ⟨out.map (fun p => (p.1.memory, p.2)), ?_, by simpa using hlen, ?_, ?_⟩
    · rw [List.map_map]; exact h3.all
    · intro q hq
      obtain ⟨p, hp, rfl⟩ := List.mem_map.1 hq
      refine drawn_plain m.db hdb _ hd1 (onlySpaces_prepared a.opt hsp) i3 ?_ ?_ p hp
      · intro v hv c hc
        simp only [innerTexts, List.mem_append, List.mem_replicate, List.mem_map] at hv
        rcases hv with (⟨-, rfl⟩ | ⟨t, ⟨q, hq, rfl⟩, rfl⟩) | ⟨-, rfl⟩
        · simp at hc
        · have := List.mem_of_mem_drop hc
          exact ⟨cleanChar_plain (hlines q hq).1 c this, ((hlines q hq).1.chars c this).2.2.2.2⟩
        · simp at hc
      · intro p hp
        have := hshort _ (List.mem_map.2 ⟨p, hp, rfl⟩)
        simp at this; omega
    · intro x q hq
      rw [List.getElem?_map] at hq
      cases hx : out[x]? with
      | none => rw [hx] at hq; simp at hq
      | some p =>
        rw [hx] at hq
        obtain rfl := Option.some.inj hq
        obtain ⟨g1, g2⟩ := i4 x p hx
        by_cases hb : EndsInBreak (lines.map (fun p => p.1 ++ p.2)) ∨ x + 1 ≠ out.length
        · exact .inl (g1 hb)
        · right
          have hx1 : x + 1 = out.length := Classical.byContradiction fun h => hb (.inr h)
          exact ⟨by simpa using hx1, g2 (fun h => hb (.inl h)) hx1⟩
  · obtain ⟨text'', h1, h2⟩ := C71_pipeline { m with input := fun _ => lines.map (fun p => p.1 ++ p.2) } hdb hbr c hc.draws fuel hopts hfiles htab heol hkill hload' hd
      hrules hrev _ rfl hmode lines hl.plain hl.nonempty hl.ends rfl hrun
    obtain rfl : text' = text'' := by simp only [Res.ok.injEq, Outcome.output.injEq] at h1; exact h1.2
    refine ⟨pieces', hp', hshort, ?_⟩
    have h3 := h2 (undo c) (fun _ => pieces') hc.draws.first rfl hfiles hp' (fun p hp => by have := hshort p hp; omega)
    rw [show named (undo c).files 1 = none from hname 1, hl.whole] at h3
    exact h3

theorem pipeline_append {m : Machine} {fuel : Nat} : ∀ (cs cs' : List CommandLine) {a b c : Str}, Pipeline m fuel cs a b → Pipeline m fuel cs' b c →
    Pipeline m fuel (cs ++ cs') a c := by
  intro cs
  induction cs with
  | nil => intro cs' a b c h h'; cases h; exact h'
  | cons x cs ih => intro cs' a b c h h'; cases h with | more h1 h2 => exact .more h1 (ih cs' h2 h')

/-- C86: boxes in boxes can be removed again, one after the other, from the outside to the inside: any number of boxes are drawn around a text,
each one around the result of the one before; if the boxes are removed in the opposite order, the text comes back. -/
theorem C86_nested (m : Machine) (hdb : Sane m.db) (hbr : BreaksSane m.db) (fuel : Nat) {eol : Str} (heol : eol = [0x0a] ∨ eol = [0x0d, 0x0a])
    (cs : List CommandLine) (hcs : ∀ c ∈ cs, Frames m fuel eol c) {text framed : Str} {lines : List (Str × Str)} (hl : PlainText m.db eol text lines)
    (hdrawn : Pipeline m fuel cs text framed) (hshort : ∀ pieces, ReadInLines framed pieces → ∀ p ∈ pieces, p.length < 16360) :
    Pipeline m fuel (cs.reverse.map undo) framed text := by
  induction cs generalizing text lines with
  | nil => cases hdrawn; exact .none _
  | cons c cs ih =>
    cases hdrawn with
    | more h1 h2 =>
    rename_i text'
    rw [List.reverse_cons, List.map_append, List.map_cons, List.map_nil]
    have key : ∃ pieces', ReadInLines text' pieces' ∧ ∀ p ∈ pieces', p.length < 16360 := by
      cases h2 with
      | none =>
        obtain ⟨a, file, d, ds, ps, hopts, htab, rfl, hkill, hload, hd, hsp, hrules, hrev, hmode⟩ := (hcs c (by simp)).settings
        obtain ⟨pieces, hp, -, hrun⟩ := h1
        obtain ⟨hlines, hread⟩ := plainText_pieces heol hl
        obtain rfl := readInLines_unique _ _ _ hp hread
        obtain ⟨n, out, text'', rfl, h1, h2, h3, -⟩ := piped_first { m with input := fun _ => lines.map (fun p => p.1 ++ p.2) } hdb hbr c (hcs c (by simp)).draws fuel hopts
          (by rw [(hcs c (by simp)).files]; exact ⟨by simp, by simp, by simp⟩) htab heol { found := hload.found, designs := hload.designs } hd hrules lines hlines hl.nonempty rfl hrun
        obtain rfl : framed = text'' := by simp only [Res.ok.injEq, Outcome.output.injEq] at h2; exact h2.2
        exact ⟨_, h3, hshort _ h3⟩
      | more g1 g2 =>
        obtain ⟨pieces', q1, q2, -⟩ := g1
        exact ⟨pieces', q1, q2⟩
    obtain ⟨pieces', q1, q2⟩ := key
    obtain ⟨⟨lines', hl'⟩, h3⟩ := framed_once m hdb hbr fuel heol (hcs c (by simp)) hl h1 q1 q2
    exact pipeline_append _ _ (ih (fun c hc => hcs c (by simp [hc])) hl' h2) (.more h3 (.none _))

/-! ## examples -/

theorem fr_frames : Frames sampleMachine 20 [0x0a] { options := [.design (lit "fr")] } where
  draws := fr_draws
  files := rfl
  settings := ⟨frArgs, _, frDesign, [], [], rfl, by decide, by decide, by decide, frDesign_loaded, frDesign_restorable, by
    have h : ∀ n ∈ [NW, NNW, N, NNE, NE, ENE, E, ESE, SE, SSE, S, SSW, SW, WSW, W, WNW], ∀ b ∈ (frDesign.core.shape n).lines, ∀ c ∈ b.memory,
        sampleDb.white c = true ∨ Blank sampleDb c → c = 0x20 := by unfold Blank; decide +kernel
    intro n _
    exact h n (by cases n <;> simp), by decide +kernel, by decide +kernel, .inr (by decide +kernel)⟩

/-- the text of the examples -/
theorem fr_text : PlainText sampleDb [0x0a] (lit "  ab\n  c\n") [(lit "  ab", lit "\n"), (lit "  c", lit "\n")] where
  whole := by decide +kernel
  nonempty := by simp
  plain := fr_lines
  ends := by
    intro x p hp
    left
    have := List.mem_of_getElem? hp
    clear hp
    revert p; decide +kernel

/-- the box in a box, line by line -/
def frTwice : List Str := [lit "  +----*\n", lit "  |+--*!\n", lit "  ||ab!!\n", lit "  ||c !!\n", lit "  |+==+!\n", lit "  +====+\n"]

theorem frTwice_read : ReadInLines frTwice.flatten frTwice where
  all := rfl
  nonempty := by decide +kernel
  inside := by decide +kernel
  ends := by
    intro x p hx hp
    have : ∀ x < 6, ∀ p ∈ frTwice[x]?, p.getLast? = some 0x0a := by decide +kernel
    exact this x (by have : frTwice.length = 6 := rfl; omega) p hp

/-- `boxes -d fr | boxes -d fr` -/
theorem fr_pipeline : Pipeline sampleMachine 20 [{ options := [.design (lit "fr")] }, { options := [.design (lit "fr")] }] (lit "  ab\n  c\n") frTwice.flatten :=
  .more (text' := lit "  +--*\n  |ab!\n  |c !\n  +==+\n") ⟨_, (plainText_pieces (.inl rfl) fr_text).2, by decide +kernel, by decide +kernel⟩
    (.more ⟨frBox, frBox_read, by decide +kernel, by decide +kernel⟩ (.none _))

/-- `boxes -d fr -r | boxes -d fr -r`, reading the output of `boxes -d fr | boxes -d fr` -/
example : Pipeline sampleMachine 20 [{ options := [.design (lit "fr"), .remove] }, { options := [.design (lit "fr"), .remove] }] frTwice.flatten (lit "  ab\n  c\n") :=
  C86_nested sampleMachine sampleDb_sane sampleDb_breaks 20 (.inl rfl) [{ options := [.design (lit "fr")] }, { options := [.design (lit "fr")] }]
    (by intro c hc; simp at hc; subst hc; exact fr_frames) fr_text fr_pipeline (by
      intro pieces h
      obtain rfl := readInLines_unique _ _ _ h frTwice_read
      decide +kernel)

end Boxes
