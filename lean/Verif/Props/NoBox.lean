import Verif.Lemmas.NoBox

/-! C88: Removing a box where there is none leaves the text as it is. -/

set_option linter.unusedSimpArgs false
set_option linter.unusedVariables false

namespace Boxes
open Spec ShapeName

/-- `handle_remove_box` for a text that shows nothing of a box: the lines that are left and what is printed -/
theorem noBox_output (db : CharDb) (hdb : Sane db) (opt : Opt) (htab : opt.tabexp ≠ 'u' ∧ opt.tabexp ≠ 'k') (hts1 : 1 ≤ opt.tabstop) (hmend : opt.mend ≤ 0)
    (d : Design) (hd : Recognisable db d) (i : Input) (vs : List Str) (hv : i.lines.map Line.text = vs.map (fromUnicode db))
    (hu : Unboxed db d vs) :
    ∃ j out, handleRemoveBox db opt d [] i = .ok (j, out) ∧ out.length = vs.length ∧ j.finalNewline = i.finalNewline ∧ j.lines.length = vs.length ∧
      ∀ (k : Nat) v, vs[k]? = some v → ∃ t, (Within db vs k → t = spaces (restored opt i.indent) ++ v) ∧
        (¬ Within db vs k → t = v) ∧
        (∃ s w l, EndTrimmed db t t s w ∧ j.lines[k]? = some l ∧ l.text = fromUnicode db s) ∧
        ∀ p, out[k]? = some p → ((∀ c ∈ t, Blank db c) → p.1 = t) ∧ ((∃ c ∈ t, ¬ Blank db c) → p.1 = dropTrailing db t) ∧
        p.2 = (if k + 1 = out.length ∧ i.finalNewline = false then [] else opt.eol) := by
  have hside := side_seen hdb hd
  have hkb : ∀ o : Opt, (if o.killblank = -1 then (if emptySide d.shape northSide ∧ emptySide d.shape southSide then (0 : Int) else 1) else o.killblank) =
      (if o.killblank = -1 then 1 else o.killblank) := by
    intro o
    have : ¬ (emptySide d.shape northSide = true ∧ emptySide d.shape southSide = true) := by
      intro h
      have := congrArg Sides.top hside
      simp only [determineEmptySides] at this
      rw [h.1] at this; simp at this
    rw [if_neg this]
  obtain ⟨kb, hkbd⟩ : ∃ kb : Int, kb = if opt.killblank = -1 then 1 else opt.killblank := ⟨_, rfl⟩
  have hlen : i.lines.length = vs.length := by simpa using congrArg List.length hv
  have hget : ∀ (k : Nat) l v, i.lines[k]? = some l → vs[k]? = some v → ∃ b, l.text = some b ∧ fromUnicode db v = some b ∧ b.memory = v := by
    intro k l v h1 h2
    have := congrArg (fun l => l[k]?) hv
    simp only [List.getElem?_map, h1, h2, Option.map_some, Option.some.injEq] at this
    have hw := hu v (List.mem_of_getElem? h2)
    obtain ⟨b, hb⟩ := analysed db (Spec.Text.plain (fun c hc => (hw.1 c hc).1)) (fun c hc => (hw.1 c hc).2)
    exact ⟨b, by rw [this, hb], hb, fromUnicode_memory hb⟩
  have hno : NoBox db d i.lines := by
    constructor
    intro l hl
    obtain ⟨k, hk⟩ := List.getElem?_of_mem hl
    have hlt := (List.getElem?_eq_some_iff.1 hk).1
    have hv' := List.getElem?_eq_getElem (l := vs) (i := k) (by omega)
    obtain ⟨b, h1, h2, h3⟩ := hget k l _ hk hv'
    obtain ⟨g1, g2, g3⟩ := hu _ (List.mem_of_getElem? hv')
    rw [← h3] at g1 g2 g3 h2
    exact ⟨b, h1, h2, fun c hc => (g1 c hc).1, g2, g3⟩
  have hblank : ∀ (k : Nat) l v, i.lines[k]? = some l → vs[k]? = some v → (textIsBlank db l.text = false ↔ ¬ BlankText db v) := by
    intro k l v h1 h2
    obtain ⟨b, e1, e2, e3⟩ := hget k l v h1 h2
    have hw := hu v (List.mem_of_getElem? h2)
    rw [e1, ← e2, ← blankText_iff (Spec.Text.plain (fun c hc => (hw.1 c hc).1)) (fun c hc => (hw.1 c hc).2)]
    simp
  have hins : ∀ k, Inside db i.lines k ↔ Within db vs k := by
    intro k
    constructor
    · rintro ⟨a, e, l, l', h1, h2, h3, h4, h5, h6⟩
      have ha := List.getElem?_eq_getElem (l := vs) (i := a) (by have := (List.getElem?_eq_some_iff.1 h3).1; omega)
      have he := List.getElem?_eq_getElem (l := vs) (i := e) (by have := (List.getElem?_eq_some_iff.1 h4).1; omega)
      exact ⟨a, e, _, _, h1, h2, ha, he, (hblank a l _ h3 ha).1 h5, (hblank e l' _ h4 he).1 h6⟩
    · rintro ⟨a, e, v, v', h1, h2, h3, h4, h5, h6⟩
      have ha := List.getElem?_eq_getElem (l := i.lines) (i := a) (by have := (List.getElem?_eq_some_iff.1 h3).1; omega)
      have he := List.getElem?_eq_getElem (l := i.lines) (i := e) (by have := (List.getElem?_eq_some_iff.1 h4).1; omega)
      exact ⟨a, e, _, _, h1, h2, ha, he, (hblank a _ _ ha h3).2 h5, (hblank e _ _ he h4).2 h6⟩
  obtain ⟨j0, r1, r2, r3, r4⟩ := noBox_removed db hdb { opt with killblank := kb } d hd i hno
  -- the texts of the lines that are left
  obtain ⟨ts, t1, t2⟩ : ∃ ts : List Str, j0.lines.map Line.text = ts.map (fromUnicode db) ∧ ∀ (k : Nat) v, vs[k]? = some v → ∃ t, ts[k]? = some t ∧
      (Within db vs k → t = spaces (restored opt i.indent) ++ v) ∧ (¬ Within db vs k → t = v) := by
    classical
    refine ⟨vs.mapIdx (fun k v => if Within db vs k then spaces (restored opt i.indent) ++ v else v), ?_, ?_⟩
    · apply List.ext_getElem?
      intro k
      rw [List.getElem?_map, List.getElem?_map, List.getElem?_mapIdx]
      by_cases hk : k < vs.length
      · have h1 := List.getElem?_eq_getElem (l := i.lines) (i := k) (by omega)
        have h2 := List.getElem?_eq_getElem (l := j0.lines) (i := k) (by omega)
        have h3 := List.getElem?_eq_getElem hk
        obtain ⟨q1, q2⟩ := r4 k _ _ h1 h2
        obtain ⟨b, e1, e2, e3⟩ := hget k _ _ h1 h3
        rw [h2, h3]
        simp only [Option.map_some, Option.some.injEq]
        by_cases hw : Within db vs k
        · rw [if_pos hw, q2 ((hins k).2 hw) b e1, e3]; rfl
        · rw [if_neg hw, q1 (fun h => hw ((hins k).1 h)), e1, e2]
      · rw [List.getElem?_eq_none (by omega), List.getElem?_eq_none (by omega)]; rfl
    · intro k v hk
      refine ⟨_, by rw [List.getElem?_mapIdx, hk]; rfl, ?_, ?_⟩
      · intro h; exact if_pos h
      · intro h; exact if_neg h
  have htl : ts.length = vs.length := by
    have := congrArg List.length t1
    simp only [List.length_map] at this; omega
  have htok : ∀ t ∈ ts, ∀ c ∈ t, c ≠ 0x1b ∧ ¬ Forbidden db c := by
    intro t htm c hc
    obtain ⟨k, hk⟩ := List.getElem?_of_mem htm
    have hlt := (List.getElem?_eq_some_iff.1 hk).1
    have hv' := List.getElem?_eq_getElem (l := vs) (i := k) (by omega)
    obtain ⟨t', e1, e2, e3⟩ := t2 k _ hv'
    rw [hk] at e1; obtain rfl := Option.some.inj e1
    have hw := (hu _ (List.mem_of_getElem? hv')).1
    by_cases h : Within db vs k
    · rw [e2 h] at hc
      rcases List.mem_append.1 hc with hc | hc
      · refine spaces_all (P := fun c => c ≠ 0x1b ∧ ¬ Forbidden db c) ⟨by decide, ?_⟩ _ c hc
        intro h
        have := h.1
        rw [hdb.space_ok] at this; simp at this
      · exact hw c hc
    · rw [e3 h] at hc; exact hw c hc
  obtain ⟨j1, s1, s2, s3⟩ : ∃ j1, applySubstitutions db d [] j0 = .ok j1 ∧ j1.lines = j0.lines ∧ j1.finalNewline = j0.finalNewline := by
    unfold applySubstitutions
    rw [substLines_nil, Res.ok_bind]
    by_cases hm : d.indentmode = 't'
    · rw [if_pos hm]
      obtain ⟨n, hn, -⟩ := getIndent_eq (lines := j0.lines) (ts := ts.map (fun q => (fromUnicode db q).getD emptyBxs)) (by
        unfold HasTexts
        rw [t1, List.map_map]
        apply List.map_congr_left
        intro q hq
        obtain ⟨b, hb⟩ := analysed db (Spec.Text.plain (fun c hc => (htok q hq c hc).1)) (fun c hc => (htok q hq c hc).2)
        simp [hb])
      rw [hn, Res.ok_bind]
      exact ⟨_, rfl, rfl, rfl⟩
    · rw [if_neg hm]
      exact ⟨_, rfl, rfl, rfl⟩
  obtain ⟨j, out, o1, -, -, o4, o5, -, o7, o8⟩ := C68_printed db { opt with killblank := kb } false j1 (ts.map (fun t => (t, t))) ⟨by
      rw [s2, t1, List.map_map]; rfl, by
      intro q hq
      obtain ⟨t, htm, rfl⟩ := List.mem_map.1 hq
      exact ⟨Spec.Text.plain (fun c hc => (htok t htm c hc).1), fun c hc => (htok t htm c hc).2⟩, fun hk => absurd hk htab.2, hts1⟩
  have o7 := o7 rfl
  rw [List.length_map] at o7
  refine ⟨j, out, ?_, by omega, by rw [o4, s3, r3], by rw [o5, List.length_map, htl], ?_⟩
  · unfold handleRemoveBox
    simp only [hkb]
    rw [← hkbd, r1, Res.ok_bind, s1, Res.ok_bind]
    have : decide (opt.mend > 0) = false := decide_eq_false (by omega)
    simp only [this]
    exact o1
  · intro k v hk
    obtain ⟨t, e1, e2, e3⟩ := t2 k v hk
    obtain ⟨s, w, l, g1, -, g3, g4⟩ := o8 k (t, t) (by rw [List.getElem?_map, e1]; rfl)
    obtain ⟨q, e5, e6⟩ := g4 rfl
    refine ⟨t, e2, e3, ⟨s, w, _, g1, g3, rfl⟩, fun p hp => ?_⟩
    rw [hp] at e5
    obtain rfl := Option.some.inj e5
    have hpl := printed_plain (fun c hc => (htok t (List.mem_of_getElem? e1) c hc).1) g1 (e6.plain htab.1 htab.2)
    refine ⟨hpl.1, hpl.2, ?_⟩
    simp only [o7, s3, r3, List.length_map]

/-- C88: the whole of `handle_remove_box` for a text that shows nothing of a box: all lines are printed, in order, without trailing blanks.
The spaces to be restored are put in front of the lines from the first to the last one that shows something. -/
theorem C88_printed (db : CharDb) (hdb : Sane db) (opt : Opt) (htab : opt.tabexp ≠ 'u' ∧ opt.tabexp ≠ 'k') (hts1 : 1 ≤ opt.tabstop) (hmend : opt.mend ≤ 0)
    (d : Design) (hd : Recognisable db d) (i : Input) (vs : List Str) (hv : i.lines.map Line.text = vs.map (fromUnicode db))
    (hu : Unboxed db d vs) :
    ∃ j out, handleRemoveBox db opt d [] i = .ok (j, out) ∧ out.length = vs.length ∧ j.finalNewline = i.finalNewline ∧
      ∀ (k : Nat) v p, vs[k]? = some v → out[k]? = some p → ∃ t, (Within db vs k → t = spaces (restored opt i.indent) ++ v) ∧
        (¬ Within db vs k → t = v) ∧ ((∀ c ∈ t, Blank db c) → p.1 = t) ∧ ((∃ c ∈ t, ¬ Blank db c) → p.1 = dropTrailing db t) ∧
        p.2 = (if k + 1 = out.length ∧ i.finalNewline = false then [] else opt.eol) := by
  obtain ⟨j, out, h1, h2, h3, -, h5⟩ := noBox_output db hdb opt htab hts1 hmend d hd i vs hv hu
  refine ⟨j, out, h1, h2, h3, fun k v p hk hp => ?_⟩
  obtain ⟨t, t1, t2, -, t4⟩ := h5 k v hk
  exact ⟨t, t1, t2, t4 p hp⟩

/-- C88: Removing a box from a plain text that shows nothing of a box: every line is printed.  The common indentation is put in front of the
lines once more, unless the options say otherwise (`restored`); empty lines at the beginning and at the end stay empty. -/
theorem C88_exact (s : Setup) (hdb : Sane s.db) (hbr : BreaksSane s.db) (hj : s.junk ≠ 0x0d) (opt : Opt) (ho : PlainRemoving opt)
    (d : Design) (ds : List Design) (hd : Restorable s.db d) (hrev : s.revRules 0 = []) (hu : s.byUser = true)
    (rows : List (Str × Str)) (hne : rows ≠ []) (hrows : ∀ p ∈ rows, PlainLine s.db p.1 ∧ Foreign s.db d p.1 ∧ LineEnd p.2 ∧ (p.1 = [] → p.2 ≠ []))
    (hpieces : s.pieces = rows.map (fun p => p.1 ++ p.2)) (n : Nat) :
    ∃ ind out, LeastIndent s.db (rows.map Prod.fst) ind ∧ runProgram s opt (d :: ds) (n + 1) = some (.ok [.read, .removed out]) ∧
      out.length = rows.length ∧
      ∀ (k : Nat) p q, rows[k]? = some p → out[k]? = some q →
        ((∃ a e v v', a ≤ k ∧ k ≤ e ∧ rows[a]? = some v ∧ rows[e]? = some v' ∧ v.1 ≠ [] ∧ v'.1 ≠ []) → q.1 = spaces (restored opt ind) ++ p.1) ∧
        ((¬ ∃ a e v v', a ≤ k ∧ k ≤ e ∧ rows[a]? = some v ∧ rows[e]? = some v' ∧ v.1 ≠ [] ∧ v'.1 ≠ []) → q.1 = p.1) ∧
        q.2 = (if k + 1 = rows.length ∧ (∀ q, rows.getLast? = some q → q.2 = []) then [] else opt.eol) := by
  obtain ⟨g1, g2, -, -⟩ := prepareDesign_fields opt d
  obtain ⟨o, hoe⟩ : ∃ o : Opt, o = { opt with mend := opt.mend - 1, killblank := killblankDefault opt.killblank d } := ⟨_, rfl⟩
  have hmend := ho.mend
  have hor : o.r = true := by rw [hoe]; exact ho.removes
  have hot : 1 ≤ o.tabstop := by rw [hoe]; exact ho.tabstop
  have hox : o.tabexp ≠ 'u' ∧ o.tabexp ≠ 'k' := by rw [hoe]; exact ho.tabs
  have hom : o.mend ≤ 0 := by rw [hoe]; simp only; omega
  have hoi : ∀ n, restored o n = restored opt n := by intro n; rw [hoe]; rfl
  have hoeol : o.eol = opt.eol := by rw [hoe]
  obtain ⟨raw, i, i1, i2, i3, i4, i5⟩ := read_rows (db := s.db) hor hot hj (prepareDesign opt d) rows hne (by
    intro p hp
    obtain ⟨h1, -, h3, h4⟩ := hrows p hp
    refine ⟨h3, ?_⟩
    by_cases h0 : p.1 = []
    · exact .inr ⟨h0, h4 h0⟩
    · have hc := cleanChar_plain h1
      refine .inl ⟨h0, fun c hc' => (hc c hc').2.2.2.1, ?_, by have := h1.short; omega⟩
      intro c hl
      exact (hc c (List.mem_of_getLast? hl)).2.2.2.2) (by
    intro p hp
    have hc := cleanChar_plain (hrows p hp).1
    exact ⟨fun c h => (hc c h).1, fun c h => (hc c h).2.1, fun c h => (hc c h).2.2.1⟩)
  obtain ⟨p1, p2, p3, -⟩ := C21_padding o (prepareDesign opt d) i
  have hshape3 : (adjustSizeAndPadding o (prepareDesign opt d) i).shape = d.shape := p3.trans g1
  have hrec := recognisable_shape hd.recognisable hshape3
    (C20_adjusted_design s.db o _ (restorable_prepared opt hd).recognisable.ready.good i).2
  obtain ⟨j, out, b1, b2, b3, b4⟩ := C88_printed s.db hdb o hox hot hom _ hrec i (rows.map Prod.fst) (by rw [i3, List.map_map]; rfl) (by
    intro v hv
    obtain ⟨p, hp, rfl⟩ := List.mem_map.1 hv
    obtain ⟨h1, h2, -⟩ := hrows p hp
    have hc := cleanChar_plain h1
    exact ⟨fun c h => ⟨(hc c h).1, (hc c h).2.1⟩, fun c h => (hc c h).2.2.1, by unfold Foreign; rw [hshape3]; exact h2⟩)
  rw [List.length_map] at b2
  have hblank : ∀ p ∈ rows, BlankText s.db p.1 ↔ p.1 = [] := by
    intro p hp
    constructor
    · intro h
      rcases (hrows p hp).1.shows with h1 | ⟨c, c1, c2, -, c4⟩
      · exact h1
      · rcases h c c1 with h | h
        · exact absurd h c2
        · exact absurd h ((hrows p hp).1.chars c c1).2.2.1
    · intro h c hc; rw [h] at hc; simp at hc
  have hwithin : ∀ k, Within s.db (rows.map Prod.fst) k ↔
      ∃ (a e : Nat) (v v' : Str × Str), a ≤ k ∧ k ≤ e ∧ rows[a]? = some v ∧ rows[e]? = some v' ∧ v.1 ≠ [] ∧ v'.1 ≠ [] := by
    intro k
    constructor
    · rintro ⟨a, e, v, v', h1, h2, h3, h4, h5, h6⟩
      rw [List.getElem?_map] at h3 h4
      cases ha : rows[a]? with
      | none => rw [ha] at h3; simp at h3
      | some x =>
        cases he : rows[e]? with
        | none => rw [he] at h4; simp at h4
        | some y =>
          rw [ha] at h3; rw [he] at h4
          obtain rfl := Option.some.inj h3
          obtain rfl := Option.some.inj h4
          exact ⟨a, e, x, y, h1, h2, ha, he, fun h => h5 ((hblank x (List.mem_of_getElem? ha)).2 h), fun h => h6 ((hblank y (List.mem_of_getElem? he)).2 h)⟩
    · rintro ⟨a, e, x, y, h1, h2, h3, h4, h5, h6⟩
      exact ⟨a, e, x.1, y.1, h1, h2, by rw [List.getElem?_map, h3]; rfl, by rw [List.getElem?_map, h4]; rfl,
        fun h => h5 ((hblank x (List.mem_of_getElem? h3)).1 h), fun h => h6 ((hblank y (List.mem_of_getElem? h4)).1 h)⟩
  refine ⟨i.indent, out, i5, run_removed s opt ho.mend ho.removes hu hrev d ds n hoe (by rw [hpieces]; exact i1) i2 ?_ b1, b2, ?_⟩
  · intro h0
    have := readAll_count i1
    rw [← analyze_removing hor i2, h0] at this
    simp at this
    exact hne (List.eq_nil_of_length_eq_zero this.symm)
  · intro k p q hp hq
    obtain ⟨t, e1, e2, e3, e4, e5⟩ := b4 k p.1 q (by rw [List.getElem?_map, hp]; rfl) hq
    rw [hwithin, hoi] at e1
    rw [hwithin] at e2
    have hpm := List.mem_of_getElem? hp
    have hprint : ∀ r, t = spaces r ++ p.1 → q.1 = t := by
      intro r ht
      by_cases h0 : p.1 = []
      · apply e3
        rw [ht, h0, List.append_nil]
        exact spaces_blank hdb _
      · obtain ⟨c, hc, hcb⟩ := plain_nonblank (hrows p hpm).1 h0
        rw [e4 ⟨c, by rw [ht]; exact List.mem_append_right _ hc, hcb⟩]
        rcases List.eq_nil_or_concat p.1 with h9 | ⟨a, z, h9⟩
        · exact absurd h9 h0
        · rw [List.concat_eq_append] at h9
          rw [ht, h9, ← List.append_assoc]
          exact dropTrailing_app s.db _ z [] (plain_last hbr (hrows p hpm).1 h9) (by simp)
    refine ⟨?_, ?_, ?_⟩
    · intro h
      rw [hprint _ (e1 h), e1 h]
    · intro h
      rw [hprint 0 (by rw [e2 h]; rfl), e2 h]
    · rw [e5, b2, hoeol]
      have hlast : i.finalNewline = false ↔ ∀ q, rows.getLast? = some q → q.2 = [] := by
        constructor
        · intro hf q hq
          refine Classical.byContradiction fun h0 => ?_
          rw [i4.2 ⟨q, hq, h0⟩] at hf; simp at hf
        · intro hq
          cases hf : i.finalNewline with
          | false => rfl
          | true =>
            obtain ⟨q, h1, h2⟩ := i4.1 hf
            exact absurd (hq q h1) h2
      simp only [hlast]

/-- C88: Removing a box from a plain text that shows nothing of a box leaves the text as it is, if the text is not indented as a whole or the
indentation is not to be restored (`-i text`, `-i none`). -/
theorem C88_unchanged (s : Setup) (hdb : Sane s.db) (hbr : BreaksSane s.db) (hj : s.junk ≠ 0x0d) (opt : Opt) (ho : PlainRemoving opt)
    (d : Design) (ds : List Design) (hd : Restorable s.db d) (hrev : s.revRules 0 = []) (hu : s.byUser = true)
    (rows : List (Str × Str)) (hne : rows ≠ []) (hrows : ∀ p ∈ rows, PlainLine s.db p.1 ∧ Foreign s.db d p.1 ∧ LineEnd p.2 ∧ (p.1 = [] → p.2 ≠ []))
    (hflush : opt.indentmode = 't' ∨ opt.indentmode = 'n' ∨ ∃ p ∈ rows, ∃ c r, p.1 = c :: r ∧ ¬ Blank s.db c)
    (hpieces : s.pieces = rows.map (fun p => p.1 ++ p.2)) (n : Nat) :
    ∃ out, runProgram s opt (d :: ds) (n + 1) = some (.ok [.read, .removed out]) ∧ out.map Prod.fst = rows.map Prod.fst ∧
      ∀ (k : Nat) q, out[k]? = some q → q.2 = (if k + 1 = rows.length ∧ (∀ q, rows.getLast? = some q → q.2 = []) then [] else opt.eol) := by
  obtain ⟨ind, out, h1, h2, h3, h4⟩ := C88_exact s hdb hbr hj opt ho d ds hd hrev hu rows hne hrows hpieces n
  have h0 : spaces (restored opt ind) = [] := by
    have : restored opt ind = 0 := by
      rcases hflush with h | h | ⟨p, hp, c, r, hpc, hc⟩
      · simp [restored, h]
      · simp [restored, h]
      · have hp1 := (hrows p hp).1
        have hs : Seen s.db p.1 := by
          rcases hp1.shows with h | h
          · rw [hpc] at h; simp at h
          · exact h
        rw [hpc] at hs
        rw [least_flush h1 (by rw [← hpc]; exact List.mem_map.2 ⟨p, hp, rfl⟩) hc hs]
        simp [restored]
    rw [this]; rfl
  refine ⟨out, h2, ?_, ?_⟩
  · apply List.ext_getElem?
    intro k
    rw [List.getElem?_map, List.getElem?_map]
    by_cases hk : k < rows.length
    · have e1 := List.getElem?_eq_getElem hk
      have e2 := List.getElem?_eq_getElem (l := out) (i := k) (by omega)
      obtain ⟨a1, a2, -⟩ := h4 k _ _ e1 e2
      rw [h0, List.nil_append] at a1
      rw [e1, e2]
      exact congrArg some ((Classical.em _).elim a1 a2)
    · rw [List.getElem?_eq_none (by omega), List.getElem?_eq_none (by omega)]
  · intro k q hq
    have hk : k < rows.length := by have := (List.getElem?_eq_some_iff.1 hq).1; omega
    exact (h4 k _ _ (List.getElem?_eq_getElem hk) hq).2.2

/-- C88, for the complete program: `boxes -d X -r` prints a plain text in which nothing of a box of this design can be seen as it is, if some line of
it is not indented. -/
theorem C88_program (m : Machine) (hdb : Sane m.db) (hbr : BreaksSane m.db) (hj : m.junk ≠ 0x0d) (c : CommandLine) (hc : DrawsWith c) (fuel : Nat) {a : Args}
    (hopts : optionLoop c.options createNewOpt = some (a, false))
    (htab : a.opt.tabexp ≠ 'u' ∧ a.opt.tabexp ≠ 'k') (heol : a.opt.eol = [0x0a] ∨ a.opt.eol = [0x0d, 0x0a])
    {file : Bxs} {d : DesignDef} {ds : List DesignDef} {ps : List Bxs} (h : Loaded m a fuel file d ds ps) (hd : Restorable m.db d.core)
    (hrev : d.revrules = [])
    (rows : List (Str × Str)) (hne : rows ≠ []) (hrows : ∀ p ∈ rows, PlainLine m.db p.1 ∧ Foreign m.db d.core p.1)
    (hends : ∀ (x : Nat) p, rows[x]? = some p → p.2 = a.opt.eol ∨ (x + 1 = rows.length ∧ p.1 ≠ [] ∧ p.2 = []))
    (hflush : ∃ p ∈ rows, ∃ c r, p.1 = c :: r ∧ ¬ Blank m.db c)
    (c' : CommandLine) (hfirst' : c'.first ≠ some (lit "-?")) (hopts' : c'.options = c.options ++ [.remove]) (hfiles' : UsableFiles m.canRead m.canWrite c'.files)
    (hinput' : m.input (named c'.files 0) = rows.map (fun p => p.1 ++ p.2)) (hfuel : 0 < fuel) :
    wholeProgram m c' fuel = some (.ok (.output (named c'.files 1) (rows.map (fun p => p.1 ++ p.2)).flatten)) := by
  obtain ⟨ho, hm, hh, hqn, hln, hu, hdes⟩ := draws_opts hc hopts htab heol
  have heolne : a.opt.eol ≠ [] := by rcases heol with h | h <;> rw [h] <;> simp
  have ha' : optionLoop c'.options createNewOpt = some ({ a with opt := { a.opt with r := true } }, false) := by
    rw [hopts']
    exact optionLoop_more (x := .remove) c.options createNewOpt hopts rfl
  have e := whole_run m c' fuel hfirst' ha' hfiles' (by
    rw [hopts']
    intro s hs
    simp at hs
    exact hc.create s hs) hqn hln (loaded_again (Nat.le_refl _) h m.input rfl rfl rfl hdes)
  obtain ⟨out, q1, q2, q3⟩ := C88_unchanged
    (setupOf m { a with opt := { a.opt with r := true } } (m.input (named c'.files 0)) (d :: ds) fuel) hdb hbr hj
    { a.opt with r := true } ⟨rfl, ho.tabs, ho.reqwidth, ho.tabstop, by simp only; rw [hm]; decide⟩
    d.core (ds.map (·.core)) hd (by simp [setupOf, rulesOf, hrev]) hu rows hne (by
      intro p hp
      obtain ⟨h1, h2⟩ := hrows p hp
      obtain ⟨x, hx⟩ := List.getElem?_of_mem hp
      refine ⟨h1, h2, ?_, ?_⟩
      · rcases hends x p hx with h | ⟨-, -, h⟩
        · rw [h]; exact .inr heol
        · exact .inl h
      · intro h0
        rcases hends x p hx with h | ⟨-, h, -⟩
        · rw [h]; exact heolne
        · exact absurd h0 h) (.inr (.inr hflush)) hinput' (fuel - 1)
  rw [show fuel - 1 + 1 = fuel by omega] at q1
  rw [e]
  rw [show runProgram (setupOf m { a with opt := { a.opt with r := true } } (m.input (named c'.files 0)) (d :: ds) fuel)
    { a.opt with r := true } (d.core :: ds.map (·.core)) fuel = _ from q1]
  simp only [Option.map_some, Res.ok_bind, renderEvents, List.append_nil]
  have hout : out = rows := by
    have hl : out.length = rows.length := by simpa using congrArg List.length q2
    apply List.ext_getElem?
    intro k
    by_cases hk : k < rows.length
    · have e1 := List.getElem?_eq_getElem hk
      have e2 := List.getElem?_eq_getElem (l := out) (i := k) (by omega)
      have h1 := congrArg (fun l => l[k]?) q2
      simp only [List.getElem?_map, e1, e2, Option.map_some, Option.some.injEq] at h1
      have h2 := q3 k _ e2
      have h3 : rows[k].2 = (if k + 1 = rows.length ∧ (∀ q, rows.getLast? = some q → q.2 = []) then [] else a.opt.eol) := by
        rcases hends k _ e1 with h | ⟨h, -, h'⟩
        · rw [if_neg]
          · exact h
          · rintro ⟨h5, h6⟩
            have := h6 rows[k] (by rw [List.getLast?_eq_getElem?, ← e1]; congr 1; omega)
            rw [this] at h; exact heolne h.symm
        · rw [if_pos, h']
          refine ⟨h, ?_⟩
          intro q hq
          rw [List.getLast?_eq_getElem?, show rows.length - 1 = k by omega, e1] at hq
          obtain rfl := Option.some.inj hq
          exact h'
      rw [e1, e2]
      exact congrArg some (Prod.ext h1 (by rw [h2, h3]))
    · rw [List.getElem?_eq_none (by omega), List.getElem?_eq_none (by omega)]
  rw [hout]


/-! ### A case -/

/-- a text without a box: the second line is empty, the third one is indented -/
def bareText : List (Str × Str) := [(lit "xy", lit "\n"), ([], lit "\n"), (lit "  z", [])]

theorem bareText_foreign : ∀ p ∈ bareText, Foreign sampleDb frDesign.core p.1 := by
  have : ∀ n ∈ [NW, NNW, N, NNE, NE, ENE, E, ESE, SE, SSE, S, SSW, SW, WSW, W, WNW], ∀ b ∈ (frDesign.core.shape n).lines, ∀ c ∈ b.memory,
      ∀ p ∈ bareText, c = 0x20 ∨ c ∉ p.1 := by decide +kernel
  intro p hp n hn b hb c hc hcb hm
  rcases this n (by cases n <;> simp) b hb c hc p hp with h | h
  · rw [h] at hcb; exact hcb (.inr sampleDb_sane.space_blank)
  · exact h hm

theorem bareText_plain : ∀ p ∈ bareText, PlainLine sampleDb p.1 := by
  intro p hp
  simp only [bareText, List.mem_cons, List.not_mem_nil, or_false] at hp
  rcases hp with rfl | rfl | rfl
  · refine ⟨?_, .inr ?_, ?_, by decide⟩
    · unfold Forbidden Blank; decide +kernel
    · exact ⟨0x78, by decide, by unfold Blank; decide +kernel, by decide, by decide +kernel⟩
    · decide +kernel
  · exact ⟨by simp, .inl rfl, by simp, by decide⟩
  · refine ⟨?_, .inr ?_, ?_, by decide⟩
    · unfold Forbidden Blank; decide +kernel
    · exact ⟨0x7a, by decide, by unfold Blank; decide +kernel, by decide, by decide +kernel⟩
    · decide +kernel

/-- `boxes -d fr -r`, reading that text -/
example : wholeProgram { sampleMachine with input := fun _ => bareText.map (fun p => p.1 ++ p.2) } { options := [.design (lit "fr"), .remove] } 20 =
    some (.ok (.output none (lit "xy\n\n  z"))) :=
  C88_program { sampleMachine with input := fun _ => bareText.map (fun p => p.1 ++ p.2) } sampleDb_sane sampleDb_breaks (by decide)
    { options := [.design (lit "fr")] } fr_draws 20 (a := frArgs) rfl (by decide) (by decide)
    (loaded_again (Nat.le_refl _) frDesign_loaded _ rfl rfl rfl rfl) frDesign_restorable (by decide +kernel) bareText (by decide)
    (fun p hp => ⟨bareText_plain p hp, bareText_foreign p hp⟩) (by
      intro x p hx
      match x, hx with
      | 0, hx => obtain rfl := Option.some.inj hx; exact .inl (by decide)
      | 1, hx => obtain rfl := Option.some.inj hx; exact .inl (by decide)
      | 2, hx => obtain rfl := Option.some.inj hx; exact .inr ⟨rfl, by decide, rfl⟩
      | x + 3, hx => simp [bareText] at hx)
    ⟨_, .head _, 0x78, _, rfl, by unfold Blank; decide +kernel⟩ { options := [.design (lit "fr"), .remove] } (by simp) rfl
    ⟨by simp, by simp, by simp⟩ rfl (by omega)

/-- C88 fails for a text that is indented as a whole: no box is found in it, but its indentation is put in front of the lines once more, also
in front of an empty line, which gets trailing spaces that way (src/remove.c:1014-1044 with `s_idx = 0`). -/
theorem C88_indented_disagrees :
    texts (removeBox sampleDb {} starDesign (mkInput ["  ab", "", "  c"] 2)) = .ok [some (lit "    ab"), some (lit "  "), some (lit "    c")] ∧
      texts (removeBox sampleDb { indentmode := 't' } starDesign (mkInput ["  ab", "", "  c"] 2)) = .ok [some (lit "  ab"), some (lit ""), some (lit "  c")] := by
  decide +kernel

end Boxes
