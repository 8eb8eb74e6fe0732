import Verif.Props.Restored

/-!
# Lemmas: mending a box

The positions of tabs are recorded in one of the three modes only, so in the others a line is its text; removing a box for mending is the same as removing it
without, except that nothing is printed; the phases of the main loop when a box is mended.
-/

set_option linter.unusedSimpArgs false

namespace Boxes
open Boxes.Spec ShapeName

/-! ## No positions of tabs -/

/-- no positions of tabs were recorded -/
def NoTabpos (ls : List Line) : Prop := ∀ l ∈ ls, l.tabpos = []

theorem readLine_tabpos {db : CharDb} {opt : Opt} (ht : opt.tabexp ≠ 'k') {junk : Nat} {s : Str} {l : Line}
    (h : readLine db opt junk s = .ok l) : l.tabpos = [] := by
  unfold readLine at h
  simp only [Res.bind_eq_ok] at h
  obtain ⟨t, -, h⟩ := h
  split at h
  · split at h
    · simp at h
    · simp only [Res.ok.injEq] at h
      subst h
      simp [expandTabs, ht]
  · simp only [Res.ok.injEq] at h
    subst h; rfl

theorem readLines_tabpos {db : CharDb} {opt : Opt} (ht : opt.tabexp ≠ 'k') {junk : Nat} : ∀ (pieces : List Str) {ls : List Line},
    readLines db opt junk pieces = .ok ls → NoTabpos ls
  | [], ls, h => by simp only [readLines, Res.ok.injEq] at h; subst h; intro l hl; simp at hl
  | s :: r, ls, h => by
    simp only [readLines, Res.bind_eq_ok, Res.ok.injEq] at h
    obtain ⟨l, h1, ls', h2, rfl⟩ := h
    intro m hm
    rcases List.mem_cons.1 hm with rfl | hm
    · exact readLine_tabpos ht h1
    · exact readLines_tabpos ht r h2 m hm

theorem readAll_tabpos {db : CharDb} {opt : Opt} (ht : opt.tabexp ≠ 'k') {junk : Nat} {pieces : List Str} {i : Input}
    (h : readAllInput db opt junk pieces = .ok i) : NoTabpos i.lines := by
  unfold readAllInput at h
  simp only [Res.bind_eq_ok, Res.ok.injEq] at h
  obtain ⟨ls, h1, rfl⟩ := h
  exact readLines_tabpos ht _ h1

theorem removeVerticalLines_tabpos {db : CharDb} {opt : Opt} {d : Design} {n : Nat} {c : CompType} : ∀ (cs : List LineCtx) (ls : List Line) {ls' : List Line},
    removeVerticalLines db opt d n c cs ls = .ok ls' → NoTabpos ls → NoTabpos ls'
  | [], ls, ls', h, hn => by simp only [removeVerticalLines, Res.ok.injEq] at h; subst h; exact hn
  | _ :: _, [], ls', h, hn => by simp [removeVerticalLines] at h
  | k :: cs, l :: ls, ls', h, hn => by
    simp only [removeVerticalLines, Res.bind_eq_ok, Res.ok.injEq] at h
    obtain ⟨x, h1, more, h2, rfl⟩ := h
    have ih := removeVerticalLines_tabpos cs ls h2 (fun m hm => hn m (by simp [hm]))
    intro m hm
    rcases List.mem_cons.1 hm with rfl | hm
    · have h0 := hn l (by simp)
      simp only [removeVerticalLine, Res.bind_eq_ok] at h1
      obtain ⟨b, -, s, -, e, -, h1⟩ := h1
      split at h1 <;> (simp only [Res.ok.injEq] at h1; subst h1; exact h0)
    · exact ih m hm

theorem noTabpos_append {a b : List Line} (ha : NoTabpos a) (hb : NoTabpos b) : NoTabpos (a ++ b) := by
  intro l hl
  exact (List.mem_append.1 hl).elim (ha l) (hb l)

theorem noTabpos_take {a : List Line} (ha : NoTabpos a) (n : Nat) : NoTabpos (a.take n) := fun l hl => ha l (List.mem_of_mem_take hl)

theorem noTabpos_drop {a : List Line} (ha : NoTabpos a) (n : Nat) : NoTabpos (a.drop n) := fun l hl => ha l (List.mem_of_mem_drop hl)

theorem cutLines_tabpos {db : CharDb} {n : Nat} : ∀ (ls : List Line) {ls' : List Line}, cutLines db n ls = .ok ls' → NoTabpos ls → NoTabpos ls'
  | [], ls', h, hn => by simp only [cutLines, Res.ok.injEq] at h; subst h; exact hn
  | l :: ls, ls', h, hn => by
    simp only [cutLines, Res.bind_eq_ok, Res.ok.injEq] at h
    obtain ⟨t, -, more, h2, rfl⟩ := h
    have ih := cutLines_tabpos ls h2 (fun m hm => hn m (by simp [hm]))
    intro m hm
    rcases List.mem_cons.1 hm with rfl | hm
    · exact hn l (by simp)
    · exact ih m hm

theorem rtrimLines_tabpos {db : CharDb} : ∀ (ls : List Line) {ls' : List Line}, rtrimLines db ls = .ok ls' → NoTabpos ls → NoTabpos ls'
  | [], ls', h, hn => by simp only [rtrimLines, Res.ok.injEq] at h; subst h; exact hn
  | l :: ls, ls', h, hn => by
    simp only [rtrimLines, Res.bind_eq_ok] at h
    obtain ⟨more, h1, h⟩ := h
    have ih := rtrimLines_tabpos ls h1 (fun m hm => hn m (by simp [hm]))
    have h0 := hn l (by simp)
    split at h
    · simp only [Res.ok.injEq] at h
      subst h
      intro m hm
      rcases List.mem_cons.1 hm with rfl | hm
      · exact h0
      · exact ih m hm
    · simp only [Res.bind_eq_ok, Res.ok.injEq] at h
      obtain ⟨t', -, rfl⟩ := h
      intro m hm
      rcases List.mem_cons.1 hm with rfl | hm
      · exact h0
      · exact ih m hm

theorem removeDefaultPadding_tabpos {db : CharDb} {i j : Input} {ctx : RemoveCtx} {n : Nat} (h : removeDefaultPadding db i ctx n = .ok j)
    (hn : NoTabpos i.lines) : NoTabpos j.lines := by
  unfold removeDefaultPadding at h
  split at h
  · split at h
    · simp only [Res.bind_eq_ok, Res.ok.injEq] at h
      obtain ⟨c, hc, _, -, _, -, rfl⟩ := h
      exact noTabpos_append (noTabpos_append (noTabpos_take hn _) (cutLines_tabpos _ hc (noTabpos_take (noTabpos_drop hn _) _))) (noTabpos_drop hn _)
    · simp at h
  · simp only [Res.ok.injEq] at h; subst h; exact hn

theorem removeBox_tabpos {db : CharDb} {opt : Opt} {d : Design} {i j : Input} (h : removeBox db opt d i = .ok j) (hn : NoTabpos i.lines) :
    NoTabpos j.lines := by
  unfold removeBox at h
  simp only [Res.bind_eq_ok] at h
  obtain ⟨q, -, h⟩ := h
  split at h
  · simp only [Res.ok.injEq] at h; subst h; exact hn
  · rename_i ctx
    simp only [applyResults, Res.bind_eq_ok] at h
    obtain ⟨ls, h1, ls2, h2, ls3, h3, m, -, h⟩ := h
    generalize (if opt.killblank ≠ 0 ∨ opt.mend ≠ 0 then killBlank db opt d ls ctx else ctx) = ctx' at h2 h3 h
    have k1 : NoTabpos ls := by
      simp only [removeVertical, Res.bind_eq_ok, Res.ok.injEq] at h1
      obtain ⟨v, h1, rfl⟩ := h1
      exact noTabpos_append (noTabpos_take hn _) (removeVerticalLines_tabpos _ _ h1 (noTabpos_drop hn _))
    have k2 : NoTabpos ls2 := by
      unfold removeBottom at h2
      split at h2
      · split at h2
        · simp only [Res.ok.injEq] at h2; subst h2
          exact noTabpos_append (noTabpos_take k1 _) (noTabpos_drop k1 _)
        · simp at h2
      · simp only [Res.ok.injEq] at h2; subst h2; exact k1
    have k3 : NoTabpos ls3 := by
      unfold removeTop at h3
      split at h3
      · split at h3
        · simp only [Res.ok.injEq] at h3; subst h3
          exact noTabpos_append (noTabpos_take k2 _) (noTabpos_drop k2 _)
        · simp at h3
      · simp only [Res.ok.injEq] at h3; subst h3; exact k2
    split at h
    · exact removeDefaultPadding_tabpos h k3
    · simp only [Res.ok.injEq] at h; subst h; exact k3

theorem substLines_none {db : CharDb} : ∀ (ls : List Line) (m : Nat), substLines db [] ls m = .ok (ls, m)
  | [], m => rfl
  | l :: r, m => by simp only [substLines, substLine, Res.ok_bind, substLines_none r m]

theorem substNone_lines {db : CharDb} {d : Design} {i j : Input} (h : applySubstitutions db d [] i = .ok j) : j.lines = i.lines := by
  unfold applySubstitutions at h
  simp only [substLines_none, Res.ok_bind] at h
  split at h
  · simp only [Res.bind_eq_ok, Res.ok.injEq] at h
    obtain ⟨n, -, rfl⟩ := h; rfl
  · simp only [Res.ok.injEq] at h; subst h; rfl

theorem handleRemove_tabpos {db : CharDb} {opt : Opt} {d : Design} {i j : Input} {out : List (Str × Str)}
    (h : handleRemoveBox db opt d [] i = .ok (j, out)) (hn : NoTabpos i.lines) : NoTabpos j.lines := by
  unfold handleRemoveBox at h
  simp only [Res.bind_eq_ok] at h
  obtain ⟨j1, h1, k, h2, h3⟩ := h
  have k1 := removeBox_tabpos h1 hn
  rw [← substNone_lines h2] at k1
  unfold outputInput at h3
  simp only [Res.bind_eq_ok] at h3
  obtain ⟨ls, h4, h3⟩ := h3
  have k2 := rtrimLines_tabpos _ h4 k1
  split at h3
  · simp only [Res.ok.injEq, Prod.mk.injEq] at h3
    obtain ⟨rfl, -⟩ := h3; exact k2
  · simp only [Res.bind_eq_ok, Res.ok.injEq, Prod.mk.injEq] at h3
    obtain ⟨o, -, rfl, -⟩ := h3; exact k2

/-! ## Removing for mending -/

/-- With -m, blank lines are kept except for the padding.  Removing a box in one round of mending leaves the same lines as in the other, but nothing is printed. -/
theorem handleRemove_mending {db : CharDb} {opt : Opt} {d : Design} {i j : Input} {out : List (Str × Str)} (hk : opt.mend ≠ 0) {m : Int} (hm : 0 < m)
    (h : handleRemoveBox db opt d [] i = .ok (j, out)) :
    handleRemoveBox db { opt with mend := m } d [] i = .ok (j, []) := by
  unfold handleRemoveBox at h ⊢
  simp only [Res.bind_eq_ok] at h
  obtain ⟨j1, h1, k, h2, h3⟩ := h
  simp only
  generalize hkb : (if opt.killblank = -1 then (if emptySide d.shape northSide = true ∧ emptySide d.shape southSide = true then (0 : Int) else 1) else opt.killblank) = kb at h1 h3 ⊢
  have hm0 : m ≠ 0 := by omega
  have e1 : removeBox db { opt with mend := m, killblank := kb } d i = removeBox db { opt with killblank := kb } d i := by
    unfold removeBox
    have hA : ∀ ctx, applyResults db { opt with mend := m, killblank := kb } d i ctx = applyResults db { opt with killblank := kb } d i ctx := by
      intro ctx
      unfold applyResults
      have a1 : removeVertical db { opt with mend := m, killblank := kb } d i ctx = removeVertical db { opt with killblank := kb } d i ctx := by
        unfold removeVertical
        have : ∀ (cs : List LineCtx) (ls : List Line), removeVerticalLines db { opt with mend := m, killblank := kb } d i.indent ctx.compType cs ls =
            removeVerticalLines db { opt with killblank := kb } d i.indent ctx.compType cs ls := by
          intro cs
          induction cs with
          | nil => intro ls; rfl
          | cons c cs ih =>
            intro ls
            cases ls with
            | nil => rfl
            | cons l ls => simp only [removeVerticalLines, ih]; rfl
        rw [this]
      have a2 : ∀ ls, killBlank db { opt with mend := m, killblank := kb } d ls ctx = killBlank db { opt with killblank := kb } d ls ctx := by
        intro ls
        have b : ∀ p, maxRemovable { opt with mend := m, killblank := kb } p = maxRemovable { opt with killblank := kb } p := by
          intro p; simp [maxRemovable, hm0, hk]
        simp only [killBlank, b]
      simp only [a1, a2, hm0, hk, ne_eq, not_false_eq_true, or_true, if_true]
    simp only [hA]
  rw [e1, h1, Res.ok_bind, h2, Res.ok_bind]
  unfold outputInput at h3 ⊢
  simp only [Res.bind_eq_ok] at h3
  obtain ⟨ls, h4, h3⟩ := h3
  rw [h4, Res.ok_bind]
  rw [if_pos (by simpa using hm)]
  split at h3
  · simp only [Res.ok.injEq, Prod.mk.injEq] at h3
    rw [h3.1]
  · simp only [Res.bind_eq_ok, Res.ok.injEq, Prod.mk.injEq] at h3
    obtain ⟨o, -, h3, -⟩ := h3
    rw [h3]

/-! ## Lines that are read -/

/-- plain lines are read as they are -/
theorem plain_raw {db : CharDb} (hdb : Sane db) (hbr : BreaksSane db) {opt : Opt} (hr : opt.r = false) (ht : 1 ≤ opt.tabstop) (junk : Nat)
    (lines : List (Str × Str)) (hl : ∀ p ∈ lines, PlainLine db p.1 ∧ LineEnd p.2) {raw : Input}
    (h : readAllInput db opt junk (lines.map (fun p => p.1 ++ p.2)) = .ok raw) :
    raw.lines.map Line.text = lines.map (fun p => fromUnicode db p.1) ∧
      (raw.finalNewline = true ↔ EndsInBreak (lines.map (fun p => p.1 ++ p.2))) := by
  have hrd : ∀ s ∈ lines.map (fun p => p.1 ++ p.2), Readable db opt.tabstop s := by
    intro s hs
    obtain ⟨p, hp, rfl⟩ := List.mem_map.1 hs
    exact plain_readable hbr (hl p hp).1 (hl p hp).2
  obtain ⟨ls, us, a1, a2, a3, a4, a5, a6⟩ := readLines_text hdb opt hr ht junk _ hrd
  have h' := h
  unfold readAllInput at h'
  rw [a1, Res.ok_bind] at h'
  simp only [Res.ok.injEq] at h'
  refine ⟨?_, ?_⟩
  · subst h'
    show ls.map Line.text = _
    rw [a2]
    apply List.ext_getElem?
    intro x
    rw [List.getElem?_map, List.getElem?_map]
    cases hx : lines[x]? with
    | none =>
      have : us[x]? = none := by
        rw [List.getElem?_eq_none_iff] at hx ⊢
        rw [a3, List.length_map]; exact hx
      rw [this, Option.map_none]
    | some t =>
      obtain ⟨u, q, z, y, g1, g3, g4, g5, g6, g7⟩ := a6 x _ (by rw [List.getElem?_map, hx]; rfl)
      obtain ⟨hl1, hl2⟩ := hl t (List.mem_of_getElem? hx)
      obtain rfl := plain_read hbr hl1 hl2 g3 g4 g5 g6
      have htab : ∀ c ∈ t.1, c ≠ 0x09 := by
        intro c hc h9
        have := (hl1.chars c hc).2.2.2.2 (.inl h9)
        omega
      have e1 : u.1 = t.1 := Spec.Expand.unique g7 (expand_plain _ _ _ htab)
      rw [g1, Option.map_some, Option.map_some, e1]
  · exact (C47_lines db opt junk _ h).2

theorem lines_eq {a b : List Line} (h : a.map Line.text = b.map Line.text) (ha : NoTabpos a) (hb : NoTabpos b) : a = b := by
  apply List.ext_getElem?
  intro x
  have := congrArg (fun l => l[x]?) h
  simp only [List.getElem?_map] at this
  cases h1 : a[x]? with
  | none =>
    rw [h1] at this
    cases h2 : b[x]? with
    | none => rfl
    | some l => rw [h2] at this; simp at this
  | some l =>
    rw [h1] at this
    cases h2 : b[x]? with
    | none => rw [h2] at this; simp at this
    | some l' =>
      rw [h2] at this
      simp only [Option.map_some, Option.some.injEq] at this
      have e1 := ha l (List.mem_of_getElem? h1)
      have e2 := hb l' (List.mem_of_getElem? h2)
      cases l; cases l'
      simp_all

/-- what is computed from the lines does not depend on what was computed before -/
theorem analyze_lines {db : CharDb} {opt : Opt} {d : Design} {rules : List Subst} {i j : Input} (hl : i.lines = j.lines) (hf : i.finalNewline = j.finalNewline) :
    analyzeInput db opt d rules i = analyzeInput db opt d rules j := by
  cases i; cases j
  simp only at hl hf
  subst hl; subst hf
  rfl

/-! ## Drawing -/

/-- mending, removing and the treatment of blank lines are not looked at when drawing -/
theorem generate_opts (db : CharDb) (opt : Opt) (k kb : Int) (r : Bool) (d : Design) (j : Input) (fuel : Nat) :
    handleGenerateBox db { opt with mend := k, killblank := kb, r := r } d j fuel = handleGenerateBox db opt d j fuel := by
  have h4 : ∀ d j box lay n x y, outputLoop db { opt with mend := k, killblank := kb, r := r } d j box lay n x y = outputLoop db opt d j box lay n x y := by
    intro d j box lay n
    induction n with
    | zero => intros; rfl
    | succ n ih =>
      intro x y
      rw [outputLoop, outputLoop]
      have : outputRow db { opt with mend := k, killblank := kb, r := r } d j box lay x y = outputRow db opt d j box lay x y := rfl
      simp only [ih, this]
  have h5 : ∀ d j box, outputBox db { opt with mend := k, killblank := kb, r := r } d j box = outputBox db opt d j box := by
    intro d j box
    unfold outputBox
    have a1 : vertFill { opt with mend := k, killblank := kb, r := r } d box j.lines.length = vertFill opt d box j.lines.length := rfl
    have a2 : horizFill { opt with mend := k, killblank := kb, r := r } d box j.maxline = horizFill opt d box j.maxline := rfl
    have a3 : indentSpc { opt with mend := k, killblank := kb, r := r } d j.indent = indentSpc opt d j.indent := rfl
    simp only [h4, a1, a2, a3]
  unfold handleGenerateBox; simp only [h5]

theorem fitPadding_kept (inner m a b : Nat) : (fitPadding 0 inner m a b).1 = a ∧ (fitPadding 0 inner m a b).2.1 = b := by
  unfold fitPadding
  split
  · simp only
    split
    · simp
    · exact ⟨rfl, rfl⟩
  · exact ⟨rfl, rfl⟩

theorem effectivePadding_again (o : Int) (p : Nat) : effectivePadding o (effectivePadding o p) = effectivePadding o p := by
  unfold effectivePadding
  split <;> rfl

/-- Without a requested size, sizes and padding computed from the design of the first round, with the minimum sizes put back, are those computed from the design. -/
theorem adjust_again (opt : Opt) (h1 : opt.reqwidth = 0) (h2 : opt.reqheight = 0) (k kb k' : Int) (r r' : Bool) (d : Design) (i i2 : Input) :
    adjustSizeAndPadding { opt with mend := k, killblank := kb, r := r }
        { adjustSizeAndPadding { opt with mend := k', r := r' } d i with minwidth := d.minwidth, minheight := d.minheight } i2 =
      adjustSizeAndPadding opt d i2 := by
  simp only [adjustSizeAndPadding, h1, h2, (fitPadding_kept _ _ _ _).1, (fitPadding_kept _ _ _ _).2, effectivePadding_again]

/-! ## The two rounds of mending -/

/-- the program mends a box in a design that was chosen -/
theorem run_mended (s : Setup) (opt : Opt) (hm : opt.mend = 2) (hr : opt.r = true) (hu : s.byUser = true) (hrev : s.revRules 0 = []) (hrules : s.rules 0 = [])
    (d0 : Design) (ds : List Design) (n : Nat) {o1 o2 o3 : Opt} (ho1 : o1 = { opt with mend := 1 })
    (ho2 : o2 = { opt with mend := 1, killblank := killblankDefault opt.killblank d0 })
    (ho3 : o3 = { opt with mend := 0, killblank := killblankDefault opt.killblank d0, r := false }) {d dA dB : Design} (hd : d = prepareDesign opt d0)
    {raw i j i2 : Input} {out : List (Bxs × Str)} (h1 : readAllInput s.db o1 s.junk s.pieces = .ok raw)
    (h2 : analyzeInput s.db o1 d [] raw = .ok i) (hl : i.lines ≠ []) (hA : dA = adjustSizeAndPadding o1 d i)
    (h3 : handleRemoveBox s.db o2 dA [] i = .ok (j, [])) (hB : dB = { dA with minwidth := d.minwidth, minheight := d.minheight })
    (h4 : analyzeInput s.db o3 dB [] j = .ok i2) (hl2 : i2.lines ≠ [])
    (h5 : handleGenerateBox s.db o3 (adjustSizeAndPadding o3 dB i2) i2 s.fuel = some (.ok out)) :
    runProgram s opt (d0 :: ds) (n + 2) = some (.ok [.read, .removed [], .drawn out]) := by
  have hsh := (prepareDesign_fields opt d0).1
  unfold runProgram
  simp only [List.getElem?_cons_zero, List.set_cons_zero]
  rw [← hd] at hsh ⊢
  have hone : mainPhase s d.minwidth d.minheight { opt := opt, designs := d :: ds, cur := 0 } =
      some (.ok (false, { opt := o2, designs := dA :: ds, cur := 0, input := j }, [.read, .removed []])) := by
    unfold mainPhase handleInput
    have ho : { opt with r := if opt.mend = 1 then false else opt.r, mend := opt.mend - 1 } = o1 := by
      rw [ho1, if_neg (by omega), hm]; rfl
    simp only [ho, List.getElem?_cons_zero, List.set_cons_zero]
    have hr1 : o1.r = true := by rw [ho1]; exact hr
    rw [if_pos (by omega), h1, Res.ok_bind]
    have e2 : analyzeInput s.db o1 { d with minwidth := d.minwidth, minheight := d.minheight } (s.rules 0) raw = .ok i := by
      rw [← h2]; exact analyze_rules hr1 d (s.rules 0) raw
    rw [e2, Res.ok_bind]
    simp only
    rw [if_neg hl, if_pos (by rw [if_neg (by omega)]; exact hr)]
    have hdd : adjustSizeAndPadding o1 { d with minwidth := d.minwidth, minheight := d.minheight } i = dA := by rw [hA]
    simp only [hdd]
    have hkb : killblankDefault o1.killblank dA = killblankDefault opt.killblank d0 := by
      unfold killblankDefault
      have : dA.shape = d0.shape := by rw [hA]; exact (C21_padding _ _ _).2.2.1.trans hsh
      rw [this, ho1]
    have ho' : { o1 with killblank := killblankDefault opt.killblank d0 } = o2 := by rw [ho1, ho2]
    unfold removePhase
    simp only [hkb, ho', hu, if_true, detectDesignIfNeeded, Res.ok_bind, List.getElem?_cons_zero, Res.get_some, hrev, h3]
    rfl
  have htwo : mainPhase s d.minwidth d.minheight { opt := o2, designs := dA :: ds, cur := 0, input := j } =
      some (.ok (false, { opt := o3, designs := adjustSizeAndPadding o3 dB i2 :: ds, cur := 0, input := i2 }, [.drawn out])) := by
    unfold mainPhase handleInput
    have ho : { o2 with r := if o2.mend = 1 then false else o2.r, mend := o2.mend - 1 } = o3 := by
      rw [ho2, ho3, if_pos rfl]; rfl
    simp only [ho, List.getElem?_cons_zero, List.set_cons_zero, ← hB]
    rw [if_neg (by rw [ho2]; simp), hrules, h4, Res.ok_bind]
    simp only
    rw [if_neg hl2, if_neg (by rw [ho2]; simp), h5]
    rfl
  unfold mainLoop
  rw [hone]
  simp only
  rw [if_pos ⟨trivial, by rw [ho2]; simp⟩]
  unfold mainLoop
  rw [htwo]
  simp only
  rw [if_neg (by rw [ho3]; simp)]
  rfl

end Boxes
