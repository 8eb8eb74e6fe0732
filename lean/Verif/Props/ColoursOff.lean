import Verif.Lemmas.ColoursOff
import Verif.Props.DrawColour

/-!
# Property C85: the colours of a line end with the line
-/
set_option linter.unusedSimpArgs false

namespace Boxes
open Boxes.Spec ShapeName

/-- C85: when a box is drawn with a design whose shape lines are self-contained around lines of text that are self-contained, no colours are
active at the end of any line that is printed. -/
theorem C85_rows (db : CharDb) (hdb : Sane db) (hbw : ∀ c, Blank db c → db.white c = true) (opt : Opt) (hr : opt.r = false) (ht : 1 ≤ opt.tabstop) (d : Design)
    (hd : GoodDesign db d) (hs : ∀ n, Present (d.shape n) → ∀ b ∈ (d.shape n).lines, SelfContained db b.memory) (junk : Nat) (pieces : List Str)
    (hp : ∀ s ∈ pieces, Readable db opt.tabstop s ∧ SelfContainedLine db s)
    (fuel : Nat) {r : Res (List (Bxs × Str))} (h : drawOnce db opt d [] junk pieces fuel = some r) :
    ∃ out, r = .ok out ∧ pieces.length ≤ out.length ∧ ∀ p ∈ out, ColoursOff p.1.memory ∧ fromUnicode db p.1.memory = some p.1 ∧ (∃ v, Text p.1.memory v) ∧ (p.2 = opt.eol ∨ p.2 = []) := by
  by_cases hne : pieces = []
  · subst hne
    have hnil : drawOnce db opt d [] junk [] fuel = some (.ok []) := by rfl
    rw [hnil] at h
    exact ⟨[], (Option.some.inj h).symm, by simp, by simp⟩
  obtain ⟨j, d', box, us, ls, out, above, below, lp, rp, s, e, rfl, rfl, c3, c4, c5, c6, c7, c8, c9, c10, c11, c12, c13, c14, c15, c16, c17, c18⟩ :=
    C16_drawing db hdb opt hr ht d hd junk pieces (fun s h => (hp s h).1) hne fuel h
  have hsh := (C21_padding opt d j).2.2.1
  obtain ⟨o1, o2, o3, o4⟩ := generateBox_off (C20_adjusted_design db opt d hd j).2 (by rw [hsh]; exact hs) c3
  have hls : ∀ (y : Nat) p, ls[y]? = some p → TextOff db p.1 p.2 := by
    intro y p hy
    have hlt : y < pieces.length := by rw [← c5]; exact (List.getElem?_eq_some_iff.1 hy).1
    obtain ⟨u, p', q, z, y', g1, g2, g3, g4, g5, g6, g7, g8, g9⟩ := c10 y _ (List.getElem?_eq_getElem hlt)
    rw [hy] at g2
    obtain rfl := Option.some.inj g2
    have hoff := line_off (hp _ (List.getElem_mem hlt)).2 g3 g4 g5 g6
    have hu : TextOff db u.1 u.2 := by
      refine ⟨g8, coloursOff_expand hoff g7, ?_⟩
      rcases g6 with rfl | ⟨p1, x, c, e, rfl, hx, hc, hw, he⟩
      · exact .inl (g7.no_tab (by simp))
      · have hst : Text (c :: e) [c] := by
          rcases he with he | ⟨rfl, -⟩
          · exact .vis c hc (by simpa using Text.esc e he Text.nil)
          · exact .vis c hc .nil
        obtain ⟨t1, t2, e0, e1, e2⟩ := Expand.split _ _ g7
        obtain ⟨w1, hw1, -⟩ := expand_text hx e1
        have h9 : c ≠ 0x09 := by intro h9; rw [hbw c (.inl h9)] at hw; simp at hw
        cases e2 with
        | tab => exact absurd rfl h9
        | char _ _ e3 =>
          rename_i t2 _
          have het : Text t2 [] := by
            rcases he with he | ⟨rfl, -⟩
            · simpa using Text.esc t2 (esc_expand he e3) Text.nil
            · cases e3; exact .nil
          rw [e0] at g8
          exact .inr ⟨w1, c, g8.unique (hw1.append (.vis c hc het)), fun hb => by rw [hbw c hb] at hw; simp at hw⟩
    rcases g9 with ⟨-, f2, f3, f4, f5⟩ | ⟨-, -, f3⟩
    · by_cases hn : (if d.indentmode = 't' then 0 else j.indent) = 0
      · have e1 := textOff_whole hu f3 (f4 hn)
        rw [hn, List.drop_zero] at f2
        have : p = u := Prod.ext e1 f2
        rw [this]; exact hu
      · have hfrom := f5 (by omega)
        refine textOff_from hu hfrom ?_
        rw [f2]
        rcases hfrom with ⟨k1, k2⟩ | ⟨a, e, c, q, k1, k2, k3, k4, k5, -⟩
        · rw [k2, List.drop_eq_nil_of_le k1]; exact .nil
        · have := g8
          rw [k1] at this
          obtain ⟨w, w1, w2⟩ := text_cancel k4 this
          have hn' : (if d.indentmode = 't' then 0 else j.indent) < u.2.length := (List.getElem?_eq_some_iff.1 k3).1
          have e1 := congrArg (List.drop (if d.indentmode = 't' then 0 else j.indent)) w1
          rw [List.drop_left' (by rw [List.length_take]; omega)] at e1
          rw [e1]; exact w2
    · rw [f3]; exact hu
  have hsp : ∀ n, SelfContained db (spaces n) := fun n => .inl (by simp [spaces, List.mem_replicate])
  have hlen : pieces.length ≤ out.length := by
    have e1 : s = 0 ∨ s = box.top.height := by
      by_cases hb : BlankSide db d [NW, NNW, N, NNE, NE]
      · exact .inr (c15.1 hb)
      · exact .inl (c15.2 hb)
    have e2 : e = 0 ∨ e = box.bottom.height := by
      by_cases hb : BlankSide db d [SE, SSE, S, SSW, SW]
      · exact .inr (c16.1 hb)
      · exact .inl (c16.2 hb)
    omega
  refine ⟨out, rfl, hlen, ?_⟩
  intro p hpo
  obtain ⟨t, htp⟩ := List.getElem?_of_mem hpo
  obtain ⟨row, i, m, r', g1, g2, g3, g4, g5, -⟩ := c18 t (List.getElem?_eq_some_iff.1 htp).1
  rw [htp] at g5
  obtain rfl := Option.some.inj g5
  suffices hbeg : Beginning db row.memory by
    obtain ⟨v, hv⟩ := hbeg.text
    obtain ⟨r'', v', k1, k2, k3, -⟩ := trimmed_rtrim db hv g3
    rw [g4] at k1
    obtain rfl := Option.some.inj k1
    refine ⟨beginning_trimmed hbeg g3 g4, k2, ⟨v', k3⟩, ?_⟩
    simp only
    split
    · exact .inl rfl
    · exact .inr rfl
  obtain ⟨ind, left, e1, e2, e3, e4⟩ := g2.parts
  rw [e4]
  have hind : Beginning db ind := by
    have := beginning_append (beginning_nil db) (p := ind) (.inl (fun h0 => by have := e1.chars _ h0; omega))
    simpa using this
  have hleft : SelfContained db left := by
    by_cases hb : BlankSide db d [SW, WSW, W, WNW, NW]
    · rw [e2 hb]; exact .inl (by simp)
    · rw [e3 hb]; exact o1 _
  have h1 := beginning_append hind hleft
  refine beginning_append ?_ (o2 _)
  generalize s + t = st at g1
  cases g1 with
  | top y hy =>
    obtain ⟨ps, q1, q2⟩ := o3 _ hy
    rw [q1]; exact beginning_flatten _ h1 q2
  | above y hy => exact beginning_append h1 (hsp _)
  | text y q k _ hy hk hpl =>
    obtain ⟨w, w1, w2, w3, w4, rfl⟩ := hpl.row
    have hto := hls _ _ hy
    have hwo : TextOff db w (q.2.drop (-k).toNat) := by
      by_cases hk0 : 0 ≤ k
      · have := textOff_whole hto w1 (w2 hk0)
        rw [this, show (-k).toNat = 0 by omega, List.drop_zero]; exact hto
      · exact textOff_from hto (w3 (by omega)) w4
    rw [show ind ++ left ++ (spaces (lp + k.toNat) ++ w ++ spaces (rp + ((j.maxline : Int) - columns db q.2 - k).toNat)) =
      ind ++ left ++ spaces (lp + k.toNat) ++ w ++ spaces (rp + ((j.maxline : Int) - columns db q.2 - k).toNat) by simp]
    exact beginning_append (beginning_append (beginning_append h1 (hsp _)) hwo.selfContained) (hsp _)
  | below y hy => exact beginning_append h1 (hsp _)
  | bottom y hy =>
    obtain ⟨ps, q1, q2⟩ := o4 _ hy
    rw [q1]; exact beginning_flatten _ h1 q2


theorem render_off {db : CharDb} (color : Bool) : ∀ (out : List (Bxs × Str)),
    (∀ p ∈ out, ColoursOff p.1.memory ∧ fromUnicode db p.1.memory = some p.1 ∧ (∃ v, Text p.1.memory v) ∧ 0x1b ∉ p.2) →
    ∃ rows : List (Str × Str), renderBox color out = .ok (rows.map (fun p => p.1 ++ p.2)).flatten ∧ rows.map Prod.snd = out.map Prod.snd ∧
      (∀ p ∈ rows, ColoursOff p.1 ∧ (color = false → 0x1b ∉ p.1)) ∧ ColoursOff (rows.map (fun p => p.1 ++ p.2)).flatten
  | [], _ => ⟨[], rfl, rfl, by simp, .inl (by simp)⟩
  | (b, e) :: more, h => by
    obtain ⟨h1, h2, ⟨v, h3⟩, h4⟩ := h (b, e) (by simp)
    obtain ⟨rows, r1, r2, r3, r4⟩ := render_off color more (fun p hp => h p (by simp [hp]))
    have ho := C03_output db h3 h2
    have hv : 0x1b ∉ v := fun hv => text_vis_ne h3 _ hv rfl
    have key : ∀ t w, Text t w → ColoursOff t → ColoursOff (t ++ e ++ (rows.map (fun p => p.1 ++ p.2)).flatten) := by
      intro t w ht hoff
      have he : ∀ c ∈ e, c ≠ 0x1b := fun c hc h0 => h4 (by simp only; rw [← h0]; exact hc)
      exact coloursOff_append (coloursOff_append hoff ht (.inl h4)) (ht.append (.plain he)) r4
    rw [renderBox, r1]
    cases color with
    | true =>
      rw [show b.toOutput true = some b.memory from ho.1]
      exact ⟨(b.memory, e) :: rows, by simp [Res.get, Res.ok_bind], by simp [r2], by simpa using ⟨h1, fun p1 p2 hp => (r3 (p1, p2) hp).1⟩,
        by simpa using key _ _ h3 h1⟩
    | false =>
      rw [show b.toOutput false = some v from ho.2]
      refine ⟨(v, e) :: rows, by simp [Res.get, Res.ok_bind], by simp [r2], ?_, by simpa using key _ _ (.plain (fun c hc h0 => hv (h0 ▸ hc))) (.inl hv)⟩
      intro p hp
      rcases List.mem_cons.1 hp with rfl | hp
      · exact ⟨.inl hv, fun _ => hv⟩
      · exact r3 p hp

/-- C85: the complete program.  What is printed are lines at whose ends no colours are active, so that none are active at the end. -/
theorem C85_program (m : Machine) (hdb : Sane m.db) (hbw : ∀ c, Blank m.db c → m.db.white c = true) (c : CommandLine) (fuel : Nat) (hfirst : c.first ≠ some (lit "-?")) {a : Args}
    (hopts : optionLoop c.options createNewOpt = some (a, false)) (hfiles : UsableFiles m.canRead m.canWrite c.files)
    (hlist : .list ∉ c.options) (hq : ∀ s, .query s ∉ c.options) (hrm : .remove ∉ c.options) (hmend : .mend ∉ c.options)
    (hcr : ∀ s, .create s ∉ c.options) (heol : 0x1b ∉ a.opt.eol)
    {file : Bxs} {d : DesignDef} {ds : List DesignDef} {ps : List Bxs} (h : Loaded m a fuel file d ds ps)
    (hesc : ∀ f decls, m.contents f = some decls → WellEscaped decls) (hrules : d.reprules = [])
    (hs : ∀ n, Present (d.core.shape n) → ∀ b ∈ (d.core.shape n).lines, SelfContained m.db b.memory)
    (hp : ∀ s ∈ m.input (named c.files 0), Readable m.db a.opt.tabstop s ∧ SelfContainedLine m.db s)
    {r : Res Outcome} (hrun : wholeProgram m c fuel = some r) :
    ∃ (text : Str) (rows : List (Str × Str)), r = .ok (.output (named c.files 1) text) ∧ text = (rows.map (fun p => p.1 ++ p.2)).flatten ∧
      (m.input (named c.files 0)).length ≤ rows.length ∧ (∀ p ∈ rows, ColoursOff p.1 ∧ (p.2 = a.opt.eol ∨ p.2 = [])) ∧ ColoursOff text ∧
      (colours c.options m.terminalColors = false → ∀ p ∈ rows, 0x1b ∉ p.1) := by
  cases fuel with
  | zero =>
    have := h.designs
    simp [parseConfigFiles, mergeLoop] at this
  | succ n =>
  obtain ⟨hr, w1⟩ := whole_draws m c n hfirst hopts hfiles hlist hq hrm hmend hcr h hrules
  have hgood := (C20_adjusted_design m.db a.opt _ (loaded_good m hdb (n + 1) h hesc d List.mem_cons_self) {}).1
  have ht := (C37_range c.options a hopts).1
  rw [w1] at hrun
  cases hd : drawOnce m.db a.opt (prepareDesign a.opt d.core) [] m.junk (m.input (named c.files 0)) (n + 1) with
  | none => simp [hd] at hrun
  | some x =>
    have hsh : (prepareDesign a.opt d.core).shape = d.core.shape := by unfold prepareDesign; split <;> rfl
    obtain ⟨out, rfl, g1, g2⟩ := C85_rows m.db hdb hbw a.opt hr ht _ hgood (by rw [hsh]; exact hs) m.junk _ hp (n + 1) hd
    have heols : ∀ p ∈ out, 0x1b ∉ p.2 := by
      intro p hp
      rcases (g2 p hp).2.2.2 with h | h <;> rw [h]
      · exact heol
      · simp
    obtain ⟨rows, t1, t2, t3, t4⟩ := render_off (db := m.db) (colours c.options m.terminalColors) out (fun p hp => ⟨(g2 p hp).1, (g2 p hp).2.1, (g2 p hp).2.2.1, heols p hp⟩)
    refine ⟨_, rows, ?_, rfl, ?_, ?_, t4, fun hc p hp => (t3 p hp).2 hc⟩
    · simp only [hd, Option.map_some, Res.ok_bind, t1, Option.some.injEq] at hrun
      exact hrun.symm
    · have := congrArg List.length t2
      simp at this; omega
    · intro p hp
      refine ⟨(t3 p hp).1, ?_⟩
      have : p.2 ∈ out.map Prod.snd := by rw [← t2]; exact List.mem_map.2 ⟨p, hp, rfl⟩
      obtain ⟨q, hq, e⟩ := List.mem_map.1 this
      rw [← e]; exact (g2 q hq).2.2.2


/-! ## Examples -/

theorem red_tinted_text (c : Nat) (hc : c ≠ 0x1b) : Text (lit "\x1b[31m" ++ c :: lit "\x1b[0m") [c] := by
  have red : EscSeq (lit "\x1b[31m") := csi_sgr (params := [0x33, 0x31]) (by decide)
  have off : EscSeq (lit "\x1b[0m") := csi_sgr (params := [0x30]) (by decide)
  exact .esc _ red (.vis c hc (by simpa using Text.esc (s := []) _ off .nil))

theorem red_tinted_off (c : Nat) (hc : c ≠ 0x1b) : ColoursOff (lit "\x1b[31m" ++ c :: lit "\x1b[0m") := by
  have red : EscSeq (lit "\x1b[31m") := csi_sgr (params := [0x33, 0x31]) (by decide)
  exact .inr ⟨lit "\x1b[31m" ++ [c], [c], lit "\x1b[0m", [], by simp, .esc _ red (.vis c hc .nil), .inr rfl, by simp⟩

theorem sampleDb_blanks : ∀ c, Blank sampleDb c → sampleDb.white c = true := by
  intro c h
  simp only [Blank, sampleDb, Bool.or_eq_true, beq_iff_eq] at h
  simp only [sampleDb, Bool.or_eq_true, beq_iff_eq, Bool.and_eq_true, decide_eq_true_eq]
  omega

/-- the design in colour is of the kind the property speaks of -/
theorem tintedDesign_selfContained : ∀ n, Present (tintedDesign.core.shape n) → ∀ b ∈ (tintedDesign.core.shape n).lines, SelfContained sampleDb b.memory := by
  have h : ∀ n ∈ [NW, NNW, N, NNE, NE, ENE, E, ESE, SE, SSE, S, SSW, SW, WSW, W, WNW], ∀ b ∈ (tintedDesign.core.shape n).lines,
      0x1b ∉ b.memory ∨ b.memory ∈ [0x2b, 0x2a, 0x21, 0x3d, 0x7c].map (fun c => lit "\x1b[31m" ++ c :: lit "\x1b[0m") := by decide +kernel
  intro n _ b hb
  rcases h n (by cases n <;> decide) b hb with h | h
  · exact .inl h
  · obtain ⟨c, hc, e⟩ := List.mem_map.1 h
    have hok : ∀ c ∈ [0x2b, 0x2a, 0x21, 0x3d, 0x7c], c ≠ 0x1b ∧ ¬ Blank sampleDb c := by decide
    obtain ⟨h1, h2⟩ := hok c hc
    rw [← e]
    exact .inr ⟨red_tinted_off c h1, [], c, red_tinted_text c h1, h2⟩

theorem tinted_wellEscaped : ∀ f decls, tintedMachine.contents f = some decls → WellEscaped decls := by
  intro f decls hf
  simp only [tintedMachine] at hf
  split at hf
  · obtain rfl := Option.some.inj hf
    intro s hs
    have : ∀ s ∈ fileTexts [.box (lit "frame") [lit "fr"] tintedItems (lit "frame")], (∀ c ∈ s, c ≠ 0x1b) ∨
        s ∈ [0x2b, 0x2a, 0x21, 0x3d, 0x7c].map (fun c => lit "\x1b[31m" ++ c :: lit "\x1b[0m") := by decide +kernel
    rcases this s hs with h | h
    · exact ⟨s, .plain h⟩
    · obtain ⟨c, hc, e⟩ := List.mem_map.1 h
      have hok : ∀ c ∈ [0x2b, 0x2a, 0x21, 0x3d, 0x7c], c ≠ 0x1b := by decide
      exact ⟨[c], e ▸ red_tinted_text c (hok c hc)⟩
  · simp at hf

/-- the lines in colour as well -/
theorem redLines_selfContained : ∀ s ∈ redLines.map (fun p => p.1 ++ p.2), Readable sampleDb 8 s ∧ SelfContainedLine sampleDb s := by
  intro s hs
  obtain ⟨p, hp, rfl⟩ := List.mem_map.1 hs
  refine ⟨coloured_readable sampleDb_breaks (red_lines p hp).1 ?_, ?_⟩
  · simp only [redLines, List.mem_cons, List.not_mem_nil, or_false] at hp
    rcases hp with rfl | rfl <;> exact .inr (.inl rfl)
  · have red : EscSeq (lit "\x1b[31m") := csi_sgr (params := [0x33, 0x31]) (by decide)
    simp only [redLines, List.mem_cons, List.not_mem_nil, or_false] at hp
    rcases hp with rfl | rfl
    · exact .inr ⟨lit "  \x1b[31ma", lit "  a", 0x62, lit "\x1b[0m", lit "\n", by decide,
        (Text.plain (v := lit "  ") (by decide)).append (.esc _ red (.plain (v := lit "a") (by decide))), by decide, by decide, .inr (.inr rfl), by decide⟩
    · exact .inr ⟨lit "  ", lit "  ", 0x63, [], lit "\n", by decide, .plain (by decide), by decide, by decide, .inl ⟨rfl, .inl (by decide)⟩, by decide⟩

/-- `boxes -d fr` with a design in colour and text in colour, on a terminal with and without colours -/
example (term : Bool) {r : Res Outcome} (h : wholeProgram (redTinted term) { options := [.design (lit "fr")] } 20 = some r) :
    ∃ text, r = .ok (.output none text) ∧ ColoursOff text := by
  obtain ⟨text, rows, h1, -, -, -, h2, -⟩ := C85_program (redTinted term) sampleDb_sane sampleDb_blanks { options := [.design (lit "fr")] } 20 (by decide) (a := frArgs) rfl
    ⟨by simp, by simp, by simp⟩ (by simp) (by simp) (by simp) (by simp) (by simp) (by decide) (redTinted_loaded term) tinted_wellEscaped (by decide +kernel)
    tintedDesign_selfContained redLines_selfContained h
  exact ⟨text, h1, h2⟩

/-- a text in which there is an escape sequence, but none that ends all colours -/
theorem colours_on {s : Str} (h : 0x1b ∈ s) (h' : ∀ i < s.length, ¬ [0x1b, 0x5b, 0x6d] <+: s.drop i ∧ ¬ [0x1b, 0x5b, 0x30, 0x6d] <+: s.drop i) : ¬ ColoursOff s := by
  rintro (h0 | ⟨a, x, e, z, rfl, -, h2, -⟩)
  · exact h0 h
  · have := h' a.length (by rcases h2 with rfl | rfl <;> simp)
    rw [List.append_assoc, List.drop_left' rfl] at this
    rcases h2 with rfl | rfl
    · exact this.1 (List.prefix_append _ _)
    · exact this.2 (List.prefix_append _ _)

/-- C85: a sequence that ends all colours is lost if there is white space between the last visible character of a line and the sequence.  The right side of the box,
and everything behind it, is shown in the colour of the text, although the colours are off at the end of the line that was read. -/
theorem C85_trailing_disagrees : ∃ s row, ColoursOff s ∧ Readable sampleDb 8 s ∧
    (drawOnce sampleDb {} starDesign [] 0 [s] 50).map (fun r => (do let out ← r; renderBox true out : Res Str)) =
      some (.ok (lit "****\n" ++ row ++ lit "\n****\n")) ∧ row = lit "*\x1b[31mab*" ∧ ¬ ColoursOff row := by
  have red : EscSeq (lit "\x1b[31m") := csi_sgr (params := [0x33, 0x31]) (by decide)
  have off : EscSeq (lit "\x1b[0m") := csi_sgr (params := [0x30]) (by decide)
  refine ⟨lit "\x1b[31mab \x1b[0m\n", _, .inr ⟨lit "\x1b[31mab ", lit "ab ", lit "\x1b[0m", lit "\n", by decide, .esc _ red (.plain (v := lit "ab ") (by decide)), .inr rfl, by decide⟩,
    ⟨lit "ab \n", _, ?_, ⟨by decide, by unfold NarrowBlanks; decide⟩, expand_plain _ _ _ (by decide), by decide⟩, by decide +kernel, rfl, colours_on (by decide) (by decide)⟩
  exact .esc _ red ((Text.plain (v := lit "ab ") (by decide)).append (.esc _ off (.plain (v := lit "\n") (by decide))))

/-- the design of `tintedItems` with a right side that ends in a blank and a sequence that ends all colours -/
def leakyMachine : Machine :=
  { sampleMachine with
    terminalColors := true,
    contents := fun b => if b.memory = lit "/h/.config/boxes/boxes-config" then some [.box (lit "frame") [lit "fr"]
      [.sample (lit "x\n"), .shapes [(NW, [lit "+"]), (N, [lit "-"]), (NE, [lit "++"]), (E, [lit "\x1b[31m! \x1b[0m"]), (SE, [lit "++"]),
        (S, [lit "="]), (SW, [lit "+"]), (W, [lit "|"])], .elastic [N, E, S, W], .tags [lit "plain"]] (lit "frame")] else none,
    input := fun _ => [lit "ab\n"] }

/-- C85: trailing blanks of the box are removed together with the sequences behind them.  The colours of the right side are active when the next line is printed, although
the colours are off at the end of each of its lines. -/
theorem C85_side_disagrees : wholeProgram leakyMachine { options := [.design (lit "fr")] } 20 = some (.ok (.output none (lit "+--++\n|ab\x1b[31m!\n+==++\n"))) ∧
    ColoursOff (lit "\x1b[31m! \x1b[0m") ∧ ¬ ColoursOff (lit "|ab\x1b[31m!") := by
  have red : EscSeq (lit "\x1b[31m") := csi_sgr (params := [0x33, 0x31]) (by decide)
  exact ⟨by decide +kernel, .inr ⟨lit "\x1b[31m! ", lit "! ", lit "\x1b[0m", [], by decide, .esc _ red (.plain (v := lit "! ") (by decide)), .inr rfl, by decide⟩,
    colours_on (by decide) (by decide)⟩

end Boxes
