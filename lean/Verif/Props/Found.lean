import Verif.Lemmas.Trace

/-!
# Property C77: removing a box without naming its design
-/
namespace Boxes
open Spec ShapeName
set_option linter.unusedSimpArgs false

/-! ## what does not matter -/

theorem removeLines_opt (db : CharDb) (o : Opt) (p : Sides Int) (h : Int) (d : Design) (n : Nat) (c : CompType) : ∀ ls rest,
    removeVerticalLines db { o with padding := p, reqheight := h } d n c ls rest = removeVerticalLines db o d n c ls rest
  | [], _ => rfl
  | _ :: _, [] => rfl
  | l :: ls, line :: rest => by
    have : removeVerticalLine db { o with padding := p, reqheight := h } d n c line l = removeVerticalLine db o d n c line l := rfl
    simp only [removeVerticalLines, removeLines_opt db o p h d n c ls rest, this]

theorem outputLines_opt (o : Opt) (p : Sides Int) (h : Int) (f : Bool) (n : Nat) : ∀ ls,
    outputLines { o with padding := p, reqheight := h } f n ls = outputLines o f n ls
  | [] => rfl
  | l :: ls => by
    have : ∀ t, outputLine { o with padding := p, reqheight := h } n l t = outputLine o n l t := fun _ => rfl
    simp only [outputLines, outputLines_opt o p h f n ls, this]

theorem remove_opt (db : CharDb) (o : Opt) (p : Sides Int) (h : Int) (d : Design) (rules : List Subst) (i : Input) :
    handleRemoveBox db { o with padding := p, reqheight := h } d rules i = handleRemoveBox db o d rules i := by
  unfold handleRemoveBox removeBox applyResults removeVertical outputInput
  have hk : ∀ (o : Opt) ls ctx, killBlank db { o with padding := p, reqheight := h } d ls ctx = killBlank db o d ls ctx := fun _ _ _ => rfl
  have h1 : ∀ kb n c ls rest, removeVerticalLines db { o with padding := p, reqheight := h, killblank := kb } d n c ls rest =
      removeVerticalLines db { o with killblank := kb } d n c ls rest := fun kb => removeLines_opt db { o with killblank := kb } p h d
  have h2 : ∀ kb f n ls, outputLines { o with padding := p, reqheight := h, killblank := kb } f n ls =
      outputLines { o with killblank := kb } f n ls := fun kb => outputLines_opt { o with killblank := kb } p h
  have h3 : ∀ kb ls ctx, killBlank db { o with padding := p, reqheight := h, killblank := kb } d ls ctx =
      killBlank db { o with killblank := kb } d ls ctx := fun kb => hk { o with killblank := kb }
  simp only [h1, h2, h3]

theorem analyze_design {db : CharDb} {opt opt' : Opt} (hr : opt.r = true) (hr' : opt'.r = true) (d d' : Design) (i : Input) :
    analyzeInput db opt d [] i = analyzeInput db opt' d' [] i := by
  unfold analyzeInput
  simp [hr, hr']

theorem read_opt (db : CharDb) (o : Opt) (p : Sides Int) (h : Int) (junk : Nat) (pieces : List Str) :
    readAllInput db { o with padding := p, reqheight := h } junk pieces = readAllInput db o junk pieces := by
  unfold readAllInput
  have : ∀ l, readLines db { o with padding := p, reqheight := h } junk l = readLines db o junk l := by
    intro l
    induction l with
    | nil => rfl
    | cons s r ih => rw [readLines, readLines, ih]; rfl
  rw [this]

/-- without any wish about padding and size, the design stays as it is -/
theorem adjust_bare (o : Opt) (hw : o.reqwidth = 0) (d : Design) (i : Input) :
    bare (adjustSizeAndPadding { o with padding := ⟨-1, -1, -1, -1⟩, reqheight := 0 } d i) = bare d := by
  have hf : ∀ inner min a b, (fitPadding 0 inner min a b).1 = a ∧ (fitPadding 0 inner min a b).2.1 = b := by
    intro inner min a b
    unfold fitPadding
    dsimp only
    repeat' split
    all_goals first | exact ⟨rfl, rfl⟩ | (rename_i h; exact absurd rfl h)
  have he : ∀ p : Nat, effectivePadding (-1) p = p := fun _ => rfl
  unfold adjustSizeAndPadding bare
  simp only [hw, hf, he]

/-! ## the specification depends on the shapes -/

theorem sees_shape {db : CharDb} {d e : Design} (h : d.shape = e.shape) {lines : List Line} {c : CompType} {s : Scene}
    (hs : Sees db d lines c s) : Sees db e lines c s := by
  have hside : ∀ l, BlankSide db d l ↔ BlankSide db e l := by intro l; unfold BlankSide; rw [h]
  have hdrop : ∀ n j l r, DroppedOn db d n j l r → DroppedOn db e n j l r := by
    intro n j l r hx
    have : ∀ x, Bare db d n j x ↔ Bare db e n j x := by intro x; unfold Bare; rw [h]
    cases n <;> simpa only [DroppedOn, this] using hx
  refine ⟨?_, hs.count, ?_, ?_, ?_, ?_, ?_, ?_, hs.line⟩
  · rw [← h]; exact hs.measures
  · rw [← hside]; exact hs.top
  · rw [← hside]; exact hs.right
  · rw [← hside]; exact hs.bottom
  · rw [← hside]; exact hs.left
  · rw [← h]; exact hs.blank
  · rw [← h]
    intro n j b t v a1 a2 a3 a4
    obtain ⟨l, r, g1, g2⟩ := hs.shape n j b t v a1 a2 a3 a4
    exact ⟨l, r, hdrop _ _ _ _ g1, g2⟩

theorem traces_shape {db : CharDb} {d e : Design} (h : d.shape = e.shape) {lines : List Line} {n : Nat} (ht : Traces db d lines n) :
    Traces db e lines n := by
  obtain ⟨s, h1, h2⟩ := ht
  exact ⟨s, sees_shape h h1, h2⟩

theorem traces_lines {db : CharDb} {d : Design} {lines lines' : List Line} (h : lines.map Line.text = lines'.map Line.text) {n : Nat}
    (ht : Traces db d lines n) : Traces db d lines' n := by
  obtain ⟨s, hs, h2⟩ := ht
  refine ⟨s, ⟨hs.measures, ?_, hs.top, hs.right, hs.bottom, hs.left, hs.blank, hs.shape, ?_⟩, h2⟩
  · rw [hs.count]; simpa using congrArg List.length h
  · intro k ln b v h1 h2 h3
    have := congrArg (fun l : List (Option Bxs) => l[k]?) h
    simp only [List.getElem?_map, h1, Option.map_some, h2] at this
    cases hx : lines[k]? with
    | none => rw [hx] at this; simp at this
    | some l =>
      rw [hx] at this
      exact hs.line k l b v hx (by simpa using this) h3

theorem comparable_shape {db : CharDb} {d e : Design} (h : d.shape = e.shape) (hc : Comparable db d) : Comparable db e := by
  obtain ⟨h1, h2, h3, h4, h5, h6, h7, h8⟩ := hc
  rw [h] at h1 h2 h3 h4 h5 h6 h7 h8
  exact ⟨h1, h2, h3, h4, h5, h6, h7, h8⟩

theorem coloured_shape {d e : Design} (h : d.shape = e.shape) : designColoured d = designColoured e := by
  unfold designColoured; rw [h]

/-! ## the program -/

/-- removing a box without a chosen design -/
theorem run_detected (s : Setup) (opt : Opt) (hm : opt.mend ≤ 0) (hr : opt.r = true) (hu : s.byUser = false)
    (d0 : Design) (ds : List Design) (n k : Nat) (hrev : s.revRules k = []) {o : Opt}
    (ho : o = { opt with mend := opt.mend - 1, killblank := killblankDefault opt.killblank d0 })
    {raw i j : Input} {out : List (Str × Str)} {ds' : List Design} {d' : Design} (h1 : readAllInput s.db o s.junk s.pieces = .ok raw)
    (h2 : analyzeInput s.db o (prepareDesign opt d0) [] raw = .ok i) (hl : i.lines ≠ [])
    (hdet : autodetectDesign s.db (adjustSizeAndPadding o (prepareDesign opt d0) i :: ds) i.lines = .ok (some k, ds')) (hk : ds'[k]? = some d')
    (h3 : handleRemoveBox s.db o d' [] i = .ok (j, out)) :
    runProgram s opt (d0 :: ds) (n + 1) = some (.ok [.read, .removed out]) := by
  have hsh := (prepareDesign_fields opt d0).1
  unfold runProgram
  simp only [List.getElem?_cons_zero, List.set_cons_zero]
  generalize hd : prepareDesign opt d0 = d at hsh h2 hdet ⊢
  unfold mainLoop mainPhase handleInput
  have ho1 : { opt with r := if opt.mend = 1 then false else opt.r, mend := opt.mend - 1 } = { opt with mend := opt.mend - 1 } := by
    rw [if_neg (by omega)]
  simp only [ho1, List.getElem?_cons_zero, List.set_cons_zero]
  rw [if_pos (by omega)]
  have e1 : readAllInput s.db { opt with mend := opt.mend - 1 } s.junk s.pieces = .ok raw := by
    rw [← h1, ho]
    unfold readAllInput
    have : ∀ l, readLines s.db { opt with mend := opt.mend - 1 } s.junk l =
        readLines s.db { opt with mend := opt.mend - 1, killblank := killblankDefault opt.killblank d0 } s.junk l := by
      intro l
      induction l with
      | nil => rfl
      | cons s r ih => rw [readLines, readLines, ih]; rfl
    rw [this]
  have e2 : analyzeInput s.db { opt with mend := opt.mend - 1 } { d with minwidth := d.minwidth, minheight := d.minheight } (s.rules 0) raw = .ok i := by
    rw [← h2, ho]
    exact analyze_rules (opt := { opt with mend := opt.mend - 1 }) hr d (s.rules 0) raw
  simp only [e1, Res.ok_bind, e2]
  rw [if_neg hl, if_pos (by rw [if_neg (by omega)]; exact hr)]
  have hkb : killblankDefault opt.killblank (adjustSizeAndPadding { opt with mend := opt.mend - 1 } { d with minwidth := d.minwidth, minheight := d.minheight } i) =
      killblankDefault opt.killblank d0 := by
    unfold killblankDefault
    have : (adjustSizeAndPadding { opt with mend := opt.mend - 1 } { d with minwidth := d.minwidth, minheight := d.minheight } i).shape = d0.shape :=
      (C21_padding _ _ _).2.2.1.trans hsh
    rw [this]
  have hdd : adjustSizeAndPadding { opt with mend := opt.mend - 1 } { d with minwidth := d.minwidth, minheight := d.minheight } i =
      adjustSizeAndPadding o d i := by rw [ho]; rfl
  unfold removePhase
  rw [hdd] at hkb
  simp only [hdd, hkb, hu, Bool.false_eq_true, if_false, detectDesignIfNeeded, hdet, Res.ok_bind, hk, Res.get_some, hrev]
  rw [← ho, h3, Res.ok_bind]
  simp only
  rw [if_neg (by rw [ho]; simp only; omega)]
  rfl

/-- the lines of a printed box, as they are read -/
theorem drawn_lines {db : CharDb} (hdb : Sane db) (hbr : BreaksSane db) {opt opt' : Opt} (ho : PlainDrawing opt) (ho' : PlainRemoving opt')
    {d : Design} (hd : Restorable db d) (d2 : Design) (junk junk' : Nat) (lines : List (Str × Str))
    (hl : ∀ p ∈ lines, PlainLine db p.1 ∧ LineEnd p.2) (hne : lines ≠ []) (fuel : Nat) {out : List (Bxs × Str)}
    (h : drawOnce db opt d [] junk (lines.map (fun p => p.1 ++ p.2)) fuel = some (.ok out)) (hshort : ∀ p ∈ out, p.1.memory.length < 16370) :
    ∃ raw i, readAllInput db opt' junk' (out.map (fun p => p.1.memory ++ p.2)) = .ok raw ∧ analyzeInput db opt' d2 [] raw = .ok i ∧
      i.lines.map Line.text = out.map (fun p => some p.1) ∧ i.lines ≠ [] ∧ PlainRead db i.lines ∧ ∀ q, Traces db d i.lines q → 2 < q := by
  obtain ⟨out', n, above, below, w, h1, -, -, h3, h4⟩ := drawn_rows db hdb hbr opt ho d hd junk lines hl hne fuel h
  obtain rfl := Res.ok.inj h1
  have hvs : ∀ v ∈ innerTexts above below (if d.indentmode = 't' then 0 else n) (lines.map Prod.fst), ∀ c ∈ v, CleanChar db c := by
    intro v hv c hc
    simp only [innerTexts, List.mem_append, List.mem_replicate, List.mem_map] at hv
    rcases hv with (⟨-, rfl⟩ | ⟨t, ⟨p, hp, rfl⟩, rfl⟩) | ⟨-, rfl⟩
    · simp at hc
    · exact cleanChar_plain (hl p hp).1 c (List.mem_of_mem_drop hc)
    · simp at hc
  have hend : ∀ p ∈ out, p.2 = [] ∨ p.2 = [0x0a] ∨ p.2 = [0x0d, 0x0a] := by
    intro p hp
    obtain ⟨x, hx⟩ := List.getElem?_of_mem hp
    obtain ⟨g1, g2⟩ := h4 x p hx
    by_cases hb : EndsInBreak (lines.map (fun p => p.1 ++ p.2)) ∨ x + 1 ≠ out.length
    · rw [g1 hb]; exact .inr ho.eol
    · have hb1 := fun h => hb (.inl h)
      have hb2 : x + 1 = out.length := Classical.byContradiction fun h => hb (.inr h)
      exact .inl (g2 hb1 hb2)
  obtain ⟨raw, i, i1, i2, -, -, -, i5, i6⟩ := drawn_reread hdb ho'.removes ho'.tabstop junk' d2 hd h3 hvs hend hshort
  obtain ⟨hchars, -⟩ := drawn_clean hdb hd h3 hvs
  have hg := hd.recognisable.ready.good
  have hlen : i.lines.length = out.length := by simpa using congrArg List.length i5
  refine ⟨raw, i, i1, i2, i5, ?_, ?_, ?_⟩
  · intro h0
    have hc := h3.count
    have := (hg.corner NE (by simp)).2.2
    rw [h0] at hlen
    simp at hlen; omega
  · intro l hl
    obtain ⟨x, hx⟩ := List.getElem?_of_mem hl
    have := congrArg (fun l : List (Option Bxs) => l[x]?) i5
    simp only [List.getElem?_map, hx, Option.map_some] at this
    cases ho : out[x]? with
    | none => rw [ho] at this; simp at this
    | some p =>
      rw [ho] at this
      have hp := List.mem_of_getElem? ho
      refine ⟨p.1, by simpa using this, h3.read p hp, fun c hc => (hchars p hp c hc).1, fun c hc => (hchars p hp c hc).2.2.1⟩
  · intro q hq
    obtain ⟨e, he⟩ : ∃ e : Design, e = { d with padding := { d.padding with left := wanted opt.padding.left d.padding.left } } := ⟨_, rfl⟩
    have hes : e.shape = d.shape := by rw [he]
    have hrec : Recognisable db e := recognisable_shape hd.recognisable hes (by
      rw [he]
      obtain ⟨⟩ := hg
      constructor <;> assumption)
    have := box_traces hdb hrec (i6 e hes (by rw [he])) (traces_shape hes.symm hq)
    omega

/-- a recognisable design has no escape sequences -/
theorem recognisable_mono {db : CharDb} {d : Design} (hd : Recognisable db d) (hc : Comparable db d) : designColoured d = false := by
  cases h : designColoured d with
  | false => rfl
  | true =>
    exfalso
    simp only [designColoured, List.any_eq_true, Bool.and_eq_true, Bool.not_eq_true', decide_eq_true_eq] at h
    obtain ⟨n, -, h1, b, h2, h3⟩ := h
    have hb := List.mem_of_mem_take h2
    have hp : Present (d.shape n) := by
      unfold Shape.isEmpty at h1
      refine ⟨?_, ?_, ?_⟩
      · rintro h; rw [h] at hb; simp at hb
      · apply Nat.pos_of_ne_zero; intro h; simp [h] at h1
      · apply Nat.pos_of_ne_zero; intro h; simp [h] at h1
    rcases hc.lines n b hb with ⟨w, rfl⟩ | ⟨s, v, g1, g2, -⟩
    · simp [fromAscii] at h3
    · have hm := (C01_metrics db g1 g2).1
      have := hd.plain n hp b hb
      rw [hm] at this
      exact (C27_colour db s v b g1 g2).1 h3 (Spec.Text.unique (Spec.Text.plain this) g1)

/-- C77, for the program: it is run to draw a box around a text and run again to remove the box from what the first run printed, without
being told the design.  If of all designs of the second run the printed box shows the most traces of the one it was drawn with, the second
run prints exactly the text. -/
theorem C77_program (s s' : Setup) (hdb : Sane s.db) (hbr : BreaksSane s.db) (hsame : s'.db = s.db) (opt opt' : Opt) (ho : PlainDrawing opt)
    (hm : opt.mend ≤ 0) (ho' : PlainRemoving opt') (d : Design) (ds : List Design) (hd : Restorable s.db d)
    (d0 : Design) (ds' : List Design) (k : Nat) (hk : (d0 :: ds')[k]? = some d) (hcmp : ∀ e ∈ d0 :: ds', Comparable s.db e)
    (hpad : (if k = 0 then wanted opt'.padding.left d.padding.left else d.padding.left) = wanted opt.padding.left d.padding.left)
    (mode : Char) (hmode : mode = if opt.indentmode = '\x00' then d.indentmode else opt.indentmode)
    (hmode' : mode = 't' ∨ (mode = 'b' ∧ (opt'.indentmode = 'b' ∨ opt'.indentmode = '\x00'))) (hkill : opt'.killblank ≠ 0)
    (hkill' : opt'.killblank = -1 → ¬ (BlankSide s.db d0 [NW, NNW, N, NNE, NE] ∧ BlankSide s.db d0 [SE, SSE, S, SSW, SW]))
    (hrules : s.rules 0 = []) (hrev : s'.revRules k = []) (hu : s'.byUser = false)
    (lines : List (Str × Str)) (hl : ∀ p ∈ lines, PlainLine s.db p.1 ∧ p.1 ≠ []) (hne : lines ≠ [])
    (hterm : ∀ (x : Nat) p, lines[x]? = some p → p.2 = opt'.eol ∨ (x + 1 = lines.length ∧ p.2 = [])) (heol : opt'.eol = [0x0a] ∨ opt'.eol = [0x0d, 0x0a])
    (hpieces : s.pieces = lines.map (fun p => p.1 ++ p.2)) (n n' : Nat) {res : Res (List Event)}
    (h : runProgram s opt (d :: ds) (n + 1) = some res) :
    ∃ out, res = .ok [.read, .drawn out] ∧ ((∀ p ∈ out, p.1.memory.length < 16370) → s'.pieces = out.map (fun p => p.1.memory ++ p.2) →
      MostTraces s.db (d0 :: ds') k (out.map (fun p => { text := some p.1 })) →
      runProgram s' opt' (d0 :: ds') (n' + 1) = some (.ok [.read, .removed lines])) := by
  obtain ⟨r, h1, h2⟩ := run_drawn s opt hm ho.draws d ds n h
  rw [hrules, hpieces] at h1
  obtain ⟨f1, f2, -, f4⟩ := prepareDesign_fields opt d
  obtain ⟨g1, g2, -, -⟩ := prepareDesign_fields opt' d
  have hdc : Comparable s.db d := hcmp d (List.mem_of_getElem? hk)
  have hk1 : killblankDefault opt'.killblank d0 ≠ 0 := by
    have key := C70_blank_default hdb (hcmp d0 (by simp)).good opt'.killblank
    by_cases h0 : opt'.killblank = -1
    · rw [key.2.2 h0 (hkill' h0)]; decide
    · rw [key.1 h0]; exact hkill
  have hmend' := ho'.mend
  have hl' : ∀ p ∈ lines, PlainLine s.db p.1 ∧ LineEnd p.2 := by
    intro p hp
    refine ⟨(hl p hp).1, ?_⟩
    obtain ⟨x, hx⟩ := List.getElem?_of_mem hp
    rcases hterm x p hx with h | h
    · rw [h]; exact .inr heol
    · exact .inl h.2
  obtain ⟨o, hoo⟩ : ∃ o, o = { opt' with mend := opt'.mend - 1, killblank := killblankDefault opt'.killblank d0 } := ⟨_, rfl⟩
  have hpr : PlainRemoving o := by rw [hoo]; exact ⟨ho'.removes, ho'.tabs, ho'.reqwidth, ho'.tabstop, by simp only; omega⟩
  have hoi : o.indentmode = opt'.indentmode := by rw [hoo]
  have hoe : o.eol = opt'.eol := by rw [hoo]
  have hok : o.killblank ≠ 0 := by rw [hoo]; exact hk1
  have hop : o.padding = opt'.padding := by rw [hoo]
  have hrd := restorable_prepared opt hd
  -- drawing and removing with the design that is found
  have core : ∃ out, r = .ok out ∧ ((∀ p ∈ out, p.1.memory.length < 16370) → ∃ raw i j,
      readAllInput s.db o s'.junk (out.map (fun p => p.1.memory ++ p.2)) = .ok raw ∧ analyzeInput s.db o (prepareDesign opt' d0) [] raw = .ok i ∧
      ∀ d', bare d' = (if k = 0 then bare (adjustSizeAndPadding o (prepareDesign opt' d) i) else bare d) →
        handleRemoveBox s.db o d' [] i = .ok (j, lines)) := by
    by_cases hk0 : k = 0
    · rw [if_pos hk0] at hpad
      obtain ⟨out, h3, h4⟩ := C71_identity s.db hdb hbr opt o ho hpr (prepareDesign opt d) (prepareDesign opt' d) hrd
        (restorable_prepared opt' hd).recognisable.ready.good (g1.trans f1.symm) (by rw [g2, f2, hop]; exact hpad) (by rw [f4, ← hmode, hoi]; exact hmode') hok
        s.junk s'.junk lines hl hne (by rw [hoe]; exact hterm) (by rw [hoe]; exact heol) s.fuel h1
      refine ⟨out, h3, fun hs => ?_⟩
      obtain ⟨raw, i, j, j1, j2, j3, -⟩ := h4 hs
      refine ⟨raw, i, j, j1, by rw [← j2]; exact analyze_design hpr.removes hpr.removes _ _ _, fun d' hd' => ?_⟩
      rw [if_pos hk0] at hd'
      rw [remove_alike hd', j3]
    · rw [if_neg hk0] at hpad
      obtain ⟨out, h3, h4⟩ := C71_identity s.db hdb hbr opt { o with padding := ⟨-1, -1, -1, -1⟩, reqheight := 0 } ho
        ⟨hpr.removes, hpr.tabs, hpr.reqwidth, hpr.tabstop, hpr.mend⟩ (prepareDesign opt d) d hrd
        hd.recognisable.ready.good f1.symm (by rw [f2]; exact hpad) (by rw [f4, ← hmode]; simp only [hoi]; exact hmode') hok
        s.junk s'.junk lines hl hne (by simp only [hoe]; exact hterm) (by simp only [hoe]; exact heol) s.fuel h1
      refine ⟨out, h3, fun hs => ?_⟩
      obtain ⟨raw, i, j, j1, j2, j3, -⟩ := h4 hs
      rw [read_opt] at j1
      refine ⟨raw, i, j, j1, by rw [← j2]; exact analyze_design hpr.removes hpr.removes _ _ _, fun d' hd' => ?_⟩
      rw [if_neg hk0] at hd'
      rw [remove_opt] at j3
      rw [remove_alike (hd'.trans (adjust_bare o hpr.reqwidth d i).symm), j3]
  obtain ⟨out, h3, h4⟩ := core
  subst h3
  have hne' : out ≠ [] := by
    obtain ⟨out', n1, above, below, w, i1, -, -, i3, -⟩ := drawn_rows s.db hdb hbr opt ho (prepareDesign opt d) hrd s.junk lines hl' hne s.fuel h1
    obtain rfl := Res.ok.inj i1
    intro h0
    have hc := i3.count
    have := (hrd.recognisable.ready.good.corner NE (by simp)).2.2
    rw [h0] at hc
    simp at hc; omega
  refine ⟨out, h2 out rfl hne', fun hshort hp hmost => ?_⟩
  obtain ⟨raw, i, j, j1, j2, j3⟩ := h4 hshort
  obtain ⟨raw', i', l1, l2, l3, l4, l5, l6⟩ := drawn_lines hdb hbr ho hpr hrd (prepareDesign opt' d0) s.junk s'.junk lines hl' hne s.fuel h1 hshort
  rw [j1] at l1
  obtain rfl := Res.ok.inj l1
  rw [j2] at l2
  obtain rfl := Res.ok.inj l2
  -- the list of designs as it is at the time of detection
  obtain ⟨a0, ha0⟩ : ∃ a0, a0 = adjustSizeAndPadding o (prepareDesign opt' d0) i := ⟨_, rfl⟩
  have hsh0 : d0.shape = a0.shape := by rw [ha0]; exact ((C21_padding _ _ _).2.2.1.trans (prepareDesign_fields opt' d0).1).symm
  have hget : ∀ (x : Nat) e, (a0 :: ds')[x]? = some e → ∃ e0, (d0 :: ds')[x]? = some e0 ∧ e0.shape = e.shape := by
    intro x e hx
    cases x with
    | zero => simp only [List.getElem?_cons_zero, Option.some.injEq] at hx; subst hx; exact ⟨d0, rfl, hsh0⟩
    | succ x => exact ⟨e, by simpa using hx, rfl⟩
  obtain ⟨dk, hdk, hdks⟩ : ∃ dk, (a0 :: ds')[k]? = some dk ∧ d.shape = dk.shape := by
    cases k with
    | zero => simp only [List.getElem?_cons_zero, Option.some.injEq] at hk; subst hk; exact ⟨a0, rfl, hsh0⟩
    | succ k => exact ⟨d, by simpa using hk, rfl⟩
  obtain ⟨des, d', e1, e2, e3⟩ := design_found (ds := a0 :: ds') (lines := i.lines) hdb (by
      intro e he
      obtain ⟨x, hx⟩ := List.getElem?_of_mem he
      obtain ⟨e0, a1, a2⟩ := hget x e hx
      exact comparable_shape a2 (hcmp e0 (List.mem_of_getElem? a1))) l5 hdk
    (by rw [← coloured_shape hdks]; exact recognisable_mono hd.recognisable hdc)
    (fun q hq => l6 q (traces_shape (hdks.symm.trans f1.symm) hq)) (by
      intro x e dd p q hx he hmono hdd hp hq
      obtain ⟨e0, a1, a2⟩ := hget x e he
      obtain ⟨d1, b1, b2⟩ := hget k dd hdd
      have hbox : i.lines.map Line.text = (out.map (fun p => ({ text := some p.1 } : Line))).map Line.text := by rw [l3, List.map_map]; rfl
      exact hmost x e0 d1 p q hx a1 (by rw [coloured_shape a2]; exact hmono) b1 (traces_lines hbox (traces_shape a2.symm hp))
        (traces_lines hbox (traces_shape b2.symm hq)))
  have hfin := j3 d' (by
    rw [e3]
    cases k with
    | zero =>
      simp only [List.getElem?_cons_zero, Option.some.injEq] at hk hdk
      rw [if_pos rfl, ← hdk, ha0, hk]
    | succ k =>
      simp only [List.getElem?_cons_succ] at hk hdk
      rw [if_neg (by omega)]
      rw [hk] at hdk
      rw [Option.some.inj hdk])
  rw [← hsame] at j1 j2 e1 hfin
  rw [← hp] at j1
  rw [ha0] at e1
  exact run_detected s' opt' ho'.mend ho'.removes hu d0 ds' n' k hrev hoo j1 j2 l4 e1 e2 hfin

end Boxes
