import Verif.Props.Found
import Verif.Lemmas.Config2

/-!
# The number of traces of a design is determined, and computed by the program
-/
namespace Boxes
open Spec ShapeName
set_option linter.unusedSimpArgs false

/-- the lines of the shapes have no escape sequences -/
theorem plain_lines {db : CharDb} {d : Design} (hc : Comparable db d) (hm : designColoured d = false) (n : ShapeName) (b : Bxs)
    (hb : b ∈ (d.shape n).lines) : ∀ c ∈ b.memory, c ≠ 0x1b := by
  have hinv : b.invis = 0 := by
    by_cases hemp : (d.shape n).isEmpty = true
    · exact hc.empty n hemp b hb
    · apply Decidable.byContradiction
      intro hne
      have : designColoured d = true := by
        simp only [designColoured, List.any_eq_true, Bool.and_eq_true, Bool.not_eq_true', decide_eq_true_eq]
        refine ⟨n, by cases n <;> decide, by simpa using hemp, b, ?_, by omega⟩
        rw [List.take_of_length_le (Nat.le_of_eq (hc.count n))]
        exact hb
      rw [this] at hm; simp at hm
  rcases hc.lines n b hb with ⟨w, rfl⟩ | ⟨s, v, h1, h2, -⟩
  · intro c hx
    have hx : c ∈ nspaces w := hx
    rw [nspaces, List.mem_replicate] at hx
    rw [hx.2]; decide
  · have hsv : s = v := by
      apply Decidable.byContradiction
      intro hne
      have := (C27_colour db s v b h1 h2).2 hne
      omega
    rw [(C01_metrics db h1 h2).1]
    rintro c hx rfl
    have := h1.length_lt hx
    rw [hsv] at this
    omega

/-- two scenes of the same design and input agree wherever it matters -/
structure SceneAgree (s s' : Scene) : Prop where
  height : s'.height = s.height
  elastic : s'.elastic = s.elastic
  present : ∀ n, s'.present n ↔ s.present n
  numLines : s'.numLines = s.numLines
  noTop : s'.noTop ↔ s.noTop
  noRight : s'.noRight ↔ s.noRight
  noBottom : s'.noBottom ↔ s.noBottom
  noLeft : s'.noLeft ↔ s.noLeft
  shapeText : ∀ n j, j < s.height n → s'.shapeText n j = s.shapeText n j
  lineText : ∀ k, k < s.numLines → s'.lineText k = s.lineText k
  lineEnd : ∀ k, k < s.numLines → s'.lineEnd k = s.lineEnd k

theorem SceneAgree.symm {s s' : Scene} (h : SceneAgree s s') : SceneAgree s' s := by
  refine ⟨h.height.symm, h.elastic.symm, fun n => (h.present n).symm, h.numLines.symm, h.noTop.symm, h.noRight.symm, h.noBottom.symm,
    h.noLeft.symm, ?_, ?_, ?_⟩
  · intro n j hj; rw [h.shapeText n j (by rw [← h.height]; exact hj)]
  · intro k hk; rw [h.lineText k (by rw [← h.numLines]; exact hk)]
  · intro k hk; rw [h.lineEnd k (by rw [← h.numLines]; exact hk)]

theorem hit_lt {s : Scene} {n : ShapeName} {j k : Nat} (h : Hit s n j k) : k < s.numLines := by
  obtain ⟨-, t, -, h⟩ := h
  cases n
  case NW | NE => exact h.2.2.1.2
  case SW | SE => exact h.2.2.1.2.2
  case NNW | N | NNE => exact h.2.2.1.2
  case SSE | S | SSW => exact h.2.2.1.2.2
  all_goals exact h.2.1.1

theorem SceneAgree.hit {s s' : Scene} (h : SceneAgree s s') {n : ShapeName} {j k : Nat} (hh : Hit s n j k) : Hit s' n j k := by
  have hk := hit_lt hh
  obtain ⟨hj, t, ht, hh⟩ := hh
  have hup : ∀ m, s'.Upper m k ↔ s.Upper m k := by intro m; unfold Scene.Upper; rw [h.height, h.numLines]
  have hlow : ∀ m, s'.Lower m k ↔ s.Lower m k := by intro m; unfold Scene.Lower; rw [h.height, h.numLines]
  have hmid : ∀ x, s'.Middle x ↔ s.Middle x := by intro x; unfold Scene.Middle; rw [h.height, h.numLines, h.noTop, h.noBottom]
  refine ⟨by rw [h.height]; exact hj, t, by rw [h.shapeText n j hj]; exact ht, ?_⟩
  cases n
  case WNW | W | WSW =>
    refine ⟨(h.present _).2 hh.1, (hmid k).2 hh.2.1, by rw [h.lineText k hk]; exact hh.2.2.1, fun j' t' a b => ?_⟩
    rw [h.shapeText _ j' (by omega)] at b
    rw [h.lineText k hk]
    exact hh.2.2.2 j' t' a b
  case ENE | E | ESE =>
    refine ⟨(h.present _).2 hh.1, (hmid k).2 hh.2.1, by rw [h.lineEnd k hk]; exact hh.2.2.1, fun k' a b => ?_⟩
    rw [h.lineEnd k' (by omega)]
    exact hh.2.2.2 k' a ((hmid k').1 b)
  all_goals simpa only [h.noTop, h.noRight, h.noBottom, h.noLeft, hup, hlow, h.elastic, h.lineText k hk, h.lineEnd k hk] using hh

/-- C77: how many traces of a design an input shows is determined. -/
theorem C77_traces_unique {db : CharDb} {d : Design} (hc : Comparable db d) (hm : designColoured d = false) {lines : List Line}
    (hin : PlainRead db lines) {p q : Nat} (hp : Traces db d lines p) (hq : Traces db d lines q) : p = q := by
  obtain ⟨s, hs, hp⟩ := hp
  obtain ⟨s', hs', hq⟩ := hq
  have hdrop : ∀ n j l r l' r', DroppedOn db d n j l r → DroppedOn db d n j l' r' → l = l' ∧ r = r' := by
    intro n j l r l' r' h h'
    have hb : ∀ (a b : Bool) (P : Prop), (a = true ↔ P) → (b = true ↔ P) → a = b := by
      intro a b P ha hb
      cases a <;> cases b <;> simp_all
    cases n
    case NNW | N | NNE | SSE | S | SSW => exact ⟨hb _ _ _ h.1 h'.1, hb _ _ _ h.2 h'.2⟩
    all_goals (obtain ⟨rfl, rfl⟩ := h; obtain ⟨rfl, rfl⟩ := h'; exact ⟨rfl, rfl⟩)
  have hag : SceneAgree s s' := by
    have hh : s'.height = s.height := by funext n; rw [(hs'.measures n).1, (hs.measures n).1]
    refine ⟨hh, ?_, ?_, by rw [hs.count, hs'.count], hs'.top.trans hs.top.symm, hs'.right.trans hs.right.symm, hs'.bottom.trans hs.bottom.symm,
      hs'.left.trans hs.left.symm, ?_, ?_, ?_⟩
    · funext n; rw [(hs'.measures n).2.1, (hs.measures n).2.1]
    · intro n; exact (hs'.measures n).2.2.trans (hs.measures n).2.2.symm
    · intro n j hj
      rw [(hs.measures n).1] at hj
      have hlt : j < (d.shape n).lines.length := by rw [hc.count]; exact hj
      have hx := List.getElem?_eq_getElem hlt
      have hesc := plain_lines hc hm n _ (List.getElem_mem hlt)
      have hb := hs.blank n j _ hx hj
      have hb' := hs'.blank n j _ hx hj
      cases h1 : s.shapeText n j with
      | none => exact hb'.2 (hb.1 h1)
      | some t =>
        cases h2 : s'.shapeText n j with
        | none => rw [hb.2 (hb'.1 h2)] at h1; cases h1
        | some t' =>
          obtain ⟨l, r, a1, a2, -, a4⟩ := hs.shape n j _ t _ hx hj h1 (Spec.Text.plain hesc)
          obtain ⟨l', r', b1, b2, -, b4⟩ := hs'.shape n j _ t' _ hx hj h2 (Spec.Text.plain hesc)
          obtain ⟨rfl, rfl⟩ := hdrop n j _ _ _ _ a1 b1
          rw [plain_part (fun c hc => (a4 (.inl rfl)).mem hc) hesc a2, plain_part (fun c hc => (b4 (.inl rfl)).mem hc) hesc b2]
    · intro k hk
      rw [hs.count] at hk
      obtain ⟨b, r1, -, r3, -⟩ := hin _ (List.getElem_mem hk)
      obtain ⟨a1, -, -, a3⟩ := hs.line k _ b _ (List.getElem?_eq_getElem hk) r1 (Spec.Text.plain r3)
      obtain ⟨b1, -, -, b3⟩ := hs'.line k _ b _ (List.getElem?_eq_getElem hk) r1 (Spec.Text.plain r3)
      rw [plain_part (fun c hc => (a3 (.inl rfl)).1.mem hc) r3 a1, plain_part (fun c hc => (b3 (.inl rfl)).1.mem hc) r3 b1]
    · intro k hk
      rw [hs.count] at hk
      obtain ⟨b, r1, -, r3, -⟩ := hin _ (List.getElem_mem hk)
      obtain ⟨-, a1, -, a3⟩ := hs.line k _ b _ (List.getElem?_eq_getElem hk) r1 (Spec.Text.plain r3)
      obtain ⟨-, b1, -, b3⟩ := hs'.line k _ b _ (List.getElem?_eq_getElem hk) r1 (Spec.Text.plain r3)
      rw [plain_part (fun c hc => (a3 (.inl rfl)).2.mem hc) r3 a1, plain_part (fun c hc => (b3 (.inl rfl)).2.mem hc) r3 b1]
  exact hp.unique (hq.congr fun x => ⟨fun h => hag.hit h, fun h => hag.symm.hit h⟩)

/-- C77: the number of traces is what `match_design` counts. -/
theorem C77_traces_counted {db : CharDb} (hdb : Sane db) {d : Design} (hc : Comparable db d) (hm : designColoured d = false) {lines : List Line}
    (hin : PlainRead db lines) (n : Nat) : Traces db d lines n ↔ ∃ d', matchDesign db d lines .literal = .ok (n, d') := by
  obtain ⟨q, hq1, hq2⟩ := literal_counted hdb hc hm hin
  constructor
  · intro h
    rw [C77_traces_unique hc hm hin h hq2]
    exact ⟨q.2, hq1⟩
  · rintro ⟨d', h⟩
    rw [hq1] at h
    obtain rfl := Res.ok.inj h
    exact hq2

/-! ## Examples -/

/-- what can be checked of a line of a shape -/
theorem comparable_line {db : CharDb} {b : Bxs} (h1 : fromUnicode db b.memory = some b) (h2 : ∀ c ∈ b.memory, c ≠ 0x1b) (h3 : NarrowBlanks db b.memory) :
    (∃ w, b = fromAscii (nspaces w)) ∨ ∃ s v, Spec.Text s v ∧ fromUnicode db s = some b ∧ NarrowBlanks db v :=
  .inr ⟨b.memory, b.memory, Spec.Text.plain h2, h1, h3⟩

theorem sampleDesign_comparable : Comparable sampleDb sampleDesign where
  unasked n := by cases n <;> decide
  names n := by cases n <;> decide
  count n := by cases n <;> decide
  north := by decide
  south := by decide
  good := sampleDesign_good.shapes
  lines n b hb := by
    have : ∀ b ∈ (sampleDesign.shape n).lines, fromUnicode sampleDb b.memory = some b ∧ (∀ c ∈ b.memory, c ≠ 0x1b) ∧ NarrowBlanks sampleDb b.memory := by
      unfold NarrowBlanks Blank
      cases n <;> decide +kernel
    obtain ⟨h1, h2, h3⟩ := this b hb
    exact comparable_line h1 h2 h3
  empty n := by cases n <;> decide

theorem starDesign_comparable : Comparable sampleDb starDesign where
  unasked n := by cases n <;> decide
  names n := by cases n <;> decide
  count n := by cases n <;> decide
  north := by decide
  south := by decide
  good := by
    intro n hn
    cases n
    all_goals first
      | exact absurd hn (by decide)
      | exact goodShape_mk _ _ _ (by decide) (by decide)
  lines n b hb := by
    have : ∀ b ∈ (starDesign.shape n).lines, fromUnicode sampleDb b.memory = some b ∧ (∀ c ∈ b.memory, c ≠ 0x1b) ∧ NarrowBlanks sampleDb b.memory := by
      unfold NarrowBlanks Blank
      cases n <;> decide +kernel
    obtain ⟨h1, h2, h3⟩ := this b hb
    exact comparable_line h1 h2 h3
  empty n := by cases n <;> decide

/-- the box around two lines of text -/
def foundBox : List (Bxs × Str) :=
  match runProgram { db := sampleDb, pieces := [lit "  a b\n", lit " cd\n"], byUser := true, fuel := 100 } {} [sampleDesign] 1 with
  | some (.ok [.read, .drawn out]) => out
  | _ => []

theorem foundBox_drawn : runProgram { db := sampleDb, pieces := [lit "  a b\n", lit " cd\n"], byUser := true, fuel := 100 } {} [sampleDesign] 1 =
    some (.ok [.read, .drawn foundBox]) := by
  have h2 : (match runProgram { db := sampleDb, pieces := [lit "  a b\n", lit " cd\n"], byUser := true, fuel := 100 } {} [sampleDesign] 1 with
      | some (.ok [.read, .drawn _]) => true
      | _ => false) = true := by decide +kernel
  unfold foundBox
  split at h2
  · rename_i out h
    rw [h]
  · simp at h2

theorem foundBox_plain : PlainRead sampleDb (foundBox.map (fun p => { text := some p.1 })) := by
  have h : ∀ p ∈ foundBox, fromUnicode sampleDb p.1.memory = some p.1 ∧ (∀ c ∈ p.1.memory, c ≠ 0x1b) ∧ NarrowBlanks sampleDb p.1.memory := by
    unfold NarrowBlanks Blank
    decide +kernel
  intro l hl
  obtain ⟨p, hp, rfl⟩ := List.mem_map.1 hl
  exact ⟨p.1, rfl, h p hp⟩

/-- the box shows traces of the sample design, but none of the design that is made of stars -/
theorem foundBox_traces : Traces sampleDb starDesign (foundBox.map (fun p => { text := some p.1 })) 0 ∧
    ∃ q, 4 ≤ q ∧ Traces sampleDb sampleDesign (foundBox.map (fun p => { text := some p.1 })) q := by
  have h1 : (match matchDesign sampleDb starDesign (foundBox.map (fun p => { text := some p.1 })) .literal with
      | .ok (0, _) => true
      | _ => false) = true := by decide +kernel
  have h2 : (match matchDesign sampleDb sampleDesign (foundBox.map (fun p => { text := some p.1 })) .literal with
      | .ok (q, _) => decide (4 ≤ q)
      | _ => false) = true := by decide +kernel
  refine ⟨(C77_traces_counted sampleDb_sane starDesign_comparable (by decide +kernel) foundBox_plain 0).2 ?_, ?_⟩
  · split at h1
    · rename_i d' h
      exact ⟨d', h⟩
    · simp at h1
  · split at h2
    · rename_i q d' h
      exact ⟨q, of_decide_eq_true h2, (C77_traces_counted sampleDb_sane sampleDesign_comparable (by decide +kernel) foundBox_plain q).2 ⟨d', h⟩⟩
    · simp at h2

theorem foundBox_most : MostTraces sampleDb [starDesign, sampleDesign] 1 (foundBox.map (fun p => { text := some p.1 })) := by
  intro i e d p q hi he hm hd hp hq
  obtain ⟨h1, q', h2, h3⟩ := foundBox_traces
  match i with
  | 0 =>
    simp only [List.getElem?_cons_zero, Option.some.injEq, List.getElem?_cons_succ] at he hd
    subst he hd
    have e1 := C77_traces_unique starDesign_comparable hm foundBox_plain hp h1
    have e2 := C77_traces_unique sampleDesign_comparable (by decide +kernel) foundBox_plain hq h3
    omega
  | 1 => omega
  | i + 2 => simp at he

/-- the hypotheses of `C77_program` hold: a box drawn with the second of two designs is removed without naming the design -/
example : runProgram { db := sampleDb, pieces := foundBox.map (fun p => p.1.memory ++ p.2), byUser := false, fuel := 100 } { r := true } [starDesign, sampleDesign] 1 =
      some (.ok [.read, .removed [(lit "  a b", [0x0a]), (lit " cd", [0x0a])]]) := by
  obtain ⟨out, h1, h2⟩ := C77_program { db := sampleDb, pieces := [lit "  a b\n", lit " cd\n"], byUser := true, fuel := 100 }
    { db := sampleDb, pieces := foundBox.map (fun p => p.1.memory ++ p.2), byUser := false, fuel := 100 } sampleDb_sane
    sampleDb_breaks rfl {} { r := true } plain_drawing (by decide) plain_removing sampleDesign [] sampleDesign_restorable starDesign [sampleDesign] 1 rfl
    (by
      intro e he
      simp only [List.mem_cons, List.not_mem_nil, or_false] at he
      rcases he with rfl | rfl
      · exact starDesign_comparable
      · exact sampleDesign_comparable) rfl 'b' rfl
    (.inr ⟨rfl, .inr rfl⟩) (by decide)
    (by
      rintro - ⟨h, -⟩
      have := h NW (by simp) (by decide) (fromAscii (lit "*")) (by decide) (lit "*") (Spec.Text.plain (by decide +kernel)) 0x2a (by decide)
      revert this
      unfold Blank
      decide +kernel) rfl rfl rfl _ sample_plain (by decide)
    (by
      intro x p h
      match x with
      | 0 => simp at h; subst h; exact .inl rfl
      | 1 => simp at h; subst h; exact .inl rfl
      | x + 2 => simp at h) (.inl rfl) rfl 0 0 foundBox_drawn
  have e : foundBox = out := by simpa using h1
  subst e
  exact h2 (by decide +kernel) rfl foundBox_most

/-- a design whose upper and lower sides are blank -/
def pillarDesign : Design where
  indentmode := 'b'
  shape := fun
    | .NW => mkShape .NW [" "]
    | .N => mkShape .N [" "] true
    | .NE => mkShape .NE [" "]
    | .E => mkShape .E ["!"] true
    | .SE => mkShape .SE [" "]
    | .S => mkShape .S [" "] true
    | .SW => mkShape .SW [" "]
    | .W => mkShape .W ["!"] true
    | n => { emptyShape with name := n }
  minwidth := 3
  minheight := 3
  padding := ⟨0, 0, 0, 0⟩

/-- C77 disagrees with the expectation that only the design that is found matters: if the first design of the configuration has blank upper and lower sides,
the blank lines that were in a box of another design stay; with the designs in the other order, they are removed. -/
theorem C77_order_disagrees :
    (runProgram { db := sampleDb, pieces := foundBox.map (fun p => p.1.memory ++ p.2), byUser := false, fuel := 100 } { r := true } [sampleDesign, pillarDesign] 1 =
      some (.ok [.read, .removed [(lit "  a b", [0x0a]), (lit " cd", [0x0a])]])) ∧
    (runProgram { db := sampleDb, pieces := foundBox.map (fun p => p.1.memory ++ p.2), byUser := false, fuel := 100 } { r := true } [pillarDesign, sampleDesign] 1 =
      some (.ok [.read, .removed [(lit "  a b", [0x0a]), (lit " cd", [0x0a]), (lit "      ", [0x0a])]])) := by
  decide +kernel

end Boxes
