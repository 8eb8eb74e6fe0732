import Verif.Lemmas.Found

/-!
# A box shows traces of its own design
-/
namespace Boxes
open Spec ShapeName
set_option linter.unusedSimpArgs false

theorem leading_app (db : CharDb) {a : Str} (w : Str) (h : ∃ c ∈ a, ¬ Blank db c) : leadingBlanks db (a ++ w) = leadingBlanks db a := by
  unfold leadingBlanks
  induction a with
  | nil => simp at h
  | cons x a ih =>
    by_cases hx : Blank db x
    · simp only [List.cons_append, List.takeWhile_cons, hx, decide_true, if_true, List.length_cons, Nat.add_right_cancel_iff]
      refine ih ?_
      obtain ⟨c, h1, h2⟩ := h
      rcases List.mem_cons.1 h1 with rfl | h1
      · exact absurd hx h2
      · exact ⟨c, h1, h2⟩
    · simp [List.takeWhile_cons, hx]

theorem west_prefix {db : CharDb} (hdb : Sane db) {ind : Nat} {a w : Str} (ha : ∃ c ∈ a, ¬ Blank db c) (hw : ∃ c ∈ w, ¬ Blank db c) :
    stripped db true false a <+: stripped db true false (dropTrailing db (spaces ind ++ (a ++ w))) := by
  have hlen : (spaces ind).length = ind := by simp [spaces]
  rw [← List.append_assoc, dropTrailing_row db _ _ hw]
  simp only [stripped, if_true, Bool.false_and, Bool.false_eq_true, if_false]
  rw [List.append_assoc, leading_before db _ _ (spaces_blank hdb ind), leading_app db _ ha, List.drop_append, hlen,
    List.drop_eq_nil_of_le (as := spaces ind) (by omega), List.nil_append, Nat.add_sub_cancel_left,
    List.drop_append_of_le_length (by unfold leadingBlanks; exact (List.takeWhile_prefix _).length_le)]
  exact List.prefix_append _ _

theorem east_suffix {db : CharDb} {a b : Str} (hb : ∃ c ∈ b, ¬ Blank db c) :
    stripped db false true b <:+ stripped db false true (dropTrailing db (a ++ b)) := by
  have hany : ∀ v : Str, (∃ c ∈ v, ¬ Blank db c) → v.any (fun c => !decide (Blank db c)) = true := by
    intro v hv; simpa using hv
  rw [dropTrailing_row db _ _ hb]
  obtain ⟨x, c, y, e1, e2, e3, e4⟩ := dropTrailing_split db hb
  simp only [stripped, Bool.false_eq_true, if_false, Bool.true_and]
  have h2 : ∃ z ∈ a ++ dropTrailing db b, ¬ Blank db z := ⟨c, by simp [e4], e2⟩
  rw [if_pos (hany b hb), if_pos (hany _ h2), e4, dropTrailing_row db a _ ⟨c, by simp, e2⟩, dropTrailing_app db x c [] e2 (by simp)]
  exact List.suffix_append _ _

/-- a text in an uncoloured one is its own visible text -/
theorem plain_part {t m w : Str} (h : ∀ c ∈ t, c ∈ m) (hm : ∀ c ∈ m, c ≠ 0x1b) (ht : Text t w) : t = w :=
  Spec.Text.unique (Spec.Text.plain fun c hc => hm c (h c hc)) ht

theorem length_le_of_subset {α : Type} [DecidableEq α] : ∀ {m l : List α}, m.Nodup → (∀ x ∈ m, x ∈ l) → m.length ≤ l.length
  | [], _, _, _ => by simp
  | x :: m, l, hm, h => by
    rw [List.nodup_cons] at hm
    have := length_le_of_subset (l := l.erase x) hm.2 (by
      intro y hy
      exact (List.mem_erase_of_ne (by rintro rfl; exact hm.1 hy)).2 (h y (by simp [hy])))
    rw [List.length_erase_of_mem (h x (by simp))] at this
    have := List.length_pos_of_mem (h x (by simp))
    simp; omega

/-- both corners of an edge row are found in it -/
theorem corners_found {db : CharDb} (hdb : Sane db) {d : Design} (hd : Recognisable db d) {lines : List Line} {s : Scene}
    (hs : Sees db d lines .literal s) {top : Bool} {ind k : Nat} {l : Line} {b : Bxs} (hl : lines[k]? = some l) (hb : l.text = some b)
    (hrow : EdgeRow db d top ind 0 b.memory) :
    (∃ t, s.shapeText (if top then NW else SW) 0 = some t ∧ t <+: s.lineText k) ∧
    (∃ t, s.shapeText (if top then NE else SE) 0 = some t ∧ t <:+ s.lineEnd k) := by
  have hesc : ∀ c ∈ b.memory, c ≠ 0x1b := edgeRow_all hd.ready.good (by decide) hd.plain hrow
  obtain ⟨l1, l2, -, l3⟩ := hs.line k l b b.memory hl hb (Spec.Text.plain hesc)
  obtain ⟨l3, l4⟩ := l3 (.inl rfl)
  have e1 := plain_part (fun c hc => l3.mem hc) hesc l1
  have e2 := plain_part (fun c hc => l4.mem hc) hesc l2
  have corner : ∀ n ∈ [NW, NE, SW, SE], ∃ x t, (d.shape n).lines[0]? = some x ∧ lineText (d.shape n) 0 = x.memory ∧
      (∃ c ∈ x.memory, ¬ Blank db c) ∧ s.shapeText n 0 = some t ∧
      ∃ lft rgt, DroppedOn db d n 0 lft rgt ∧ t = stripped db lft rgt x.memory := by
    intro n hn
    have hp : Present (d.shape n) := hd.ready.good.corner n (by revert hn; cases n <;> decide)
    have hlt : 0 < (d.shape n).lines.length := by rw [(hd.ready.good.shapes n hp).height]; exact hp.2.2
    have hx := List.getElem?_eq_getElem hlt
    have hplain := hd.plain n hp _ (List.getElem_mem hlt)
    obtain ⟨c, c1, c2, c3, -⟩ := hd.corners n hn _ (List.getElem_mem hlt)
    cases ht : s.shapeText n 0 with
    | none =>
      rcases (hs.blank n 0 _ hx hp.2.2).1 ht _ (Spec.Text.plain hplain) c c1 with h | h
      · exact absurd h c2
      · exact absurd h c3
    | some t =>
      obtain ⟨lft, rgt, g1, g2, -, g3⟩ := hs.shape n 0 _ t _ hx hp.2.2 ht (Spec.Text.plain hplain)
      exact ⟨_, t, hx, by simp [lineText, hx], ⟨c, c1, c2⟩, rfl, lft, rgt, g1, plain_part (fun c hc => (g3 (.inl rfl)).mem hc) hplain g2⟩
  obtain ⟨na, nb, nc, -, -, -, hr⟩ := hrow
  obtain ⟨x, t, x1, x2, x3, x4, lf, rg, x5, x6⟩ := corner (if top then NW else SW) (by cases top <;> simp)
  obtain ⟨y, u, y1, y2, y3, y4, lf', rg', y5, y6⟩ := corner (if top then NE else SE) (by cases top <;> simp)
  rw [x2, y2] at hr
  have hx : lf = true ∧ rg = false := by cases top <;> exact x5
  have hy : lf' = false ∧ rg' = true := by cases top <;> exact y5
  rw [hx.1, hx.2] at x6
  rw [hy.1, hy.2] at y6
  obtain ⟨c, c1, c2⟩ := y3
  refine ⟨⟨t, x4, ?_⟩, ⟨u, y4, ?_⟩⟩
  · rw [x6, e1, hr]
    simp only [List.append_assoc]
    exact west_prefix hdb x3 ⟨c, by simp [c1], c2⟩
  · rw [y6, e2, hr]
    exact east_suffix ⟨c, c1, c2⟩

/-- a box shows at least four traces of its own design: the corners -/
theorem box_traces {db : CharDb} (hdb : Sane db) {d : Design} (hd : Recognisable db d) {ind : Nat} {ms : List Str} {lines : List Line}
    (hbox : BoxAround db d ind ms lines) {q : Nat} (hq : Traces db d lines q) : 4 ≤ q := by
  obtain ⟨s, hs, l, h1, h2, rfl⟩ := hq
  have hcor := fun n hn => hd.ready.good.corner n hn
  have hN : (d.shape NE).height = (d.shape NW).height := hd.ready.good.north NE (by simp) (hcor NE (by simp))
  have hS : (d.shape SE).height = (d.shape SW).height := hd.ready.good.south SE (by simp) (hcor SE (by simp))
  have hn0 : 0 < (d.shape NE).height := (hcor NE (by simp)).2.2
  have hs0 : 0 < (d.shape SE).height := (hcor SE (by simp)).2.2
  have hcount := hbox.count
  have open' : ∀ side n, n ∈ side → n ∈ [NW, NE, SW, SE] → ¬ BlankSide db d side := fun side n a b h => seen_not_blankShape hd b (h n a)
  have o1 : ¬ s.noTop := fun h => open' _ NW (by simp) (by simp) (hs.top.1 h)
  have o2 : ¬ s.noBottom := fun h => open' _ SW (by simp) (by simp) (hs.bottom.1 h)
  have o3 : ¬ s.noLeft := fun h => open' _ NW (by simp) (by simp) (hs.left.1 h)
  have o4 : ¬ s.noRight := fun h => open' _ NE (by simp) (by simp) (hs.right.1 h)
  have hm := fun n => (hs.measures n).1
  have hk1 : 0 < lines.length := by omega
  have hk2 : (d.shape NE).height + ms.length + 0 < lines.length := by omega
  obtain ⟨b1, r1, -⟩ := hbox.read _ (List.getElem_mem hk1)
  obtain ⟨b2, r2, -⟩ := hbox.read _ (List.getElem_mem hk2)
  obtain ⟨⟨t1, p1, p1'⟩, t2, p2, p2'⟩ := corners_found hdb hd hs (top := true) (List.getElem?_eq_getElem hk1) r1
    (hbox.top 0 _ _ hn0 (List.getElem?_eq_getElem hk1) r1)
  obtain ⟨⟨t3, p3, p3'⟩, t4, p4, p4'⟩ := corners_found hdb hd hs (top := false) (List.getElem?_eq_getElem hk2) r2
    (hbox.bottom 0 _ _ hs0 (List.getElem?_eq_getElem hk2) r2)
  simp only [if_true, Bool.false_eq_true, if_false] at p1 p2 p3 p4
  have hc := hs.count
  have hmNW := hm NW
  have hmNE := hm NE
  have hmSW := hm SW
  have hmSE := hm SE
  let K := (d.shape NE).height + ms.length + 0
  have := length_le_of_subset (m := [(NW, 0, 0), (NE, 0, 0), (SW, 0, K), (SE, 0, K)]) (l := l) (by simp) (by
    intro x hx
    rw [h2]
    simp only [List.mem_cons, List.not_mem_nil, or_false] at hx
    rcases hx with rfl | rfl | rfl | rfl
    · exact ⟨by simp only; omega, t1, p1, o3, o1, ⟨by simp only; omega, by simp only; omega⟩, p1'⟩
    · exact ⟨by simp only; omega, t2, p2, o4, o1, ⟨by simp only; omega, by simp only; omega⟩, p2'⟩
    · exact ⟨by simp only; omega, t3, p3, o3, o2, ⟨by omega, by simp only [K]; omega, by simp only [K]; omega⟩, p3'⟩
    · exact ⟨by simp only; omega, t4, p4, o4, o2, ⟨by omega, by simp only [K]; omega, by simp only [K]; omega⟩, p4'⟩)
  simpa using this

/-- input lines without escape sequences, as they are read -/
def PlainRead (db : CharDb) (lines : List Line) : Prop :=
  ∀ l ∈ lines, ∃ b, l.text = some b ∧ fromUnicode db b.memory = some b ∧ (∀ c ∈ b.memory, c ≠ 0x1b) ∧ NarrowBlanks db b.memory

theorem plainRead_lines {db : CharDb} {lines : List Line} (hin : PlainRead db lines) :
    ∀ ln ∈ lines, ∃ b s v, ln.text = some b ∧ Text s v ∧ fromUnicode db s = some b ∧ NarrowBlanks db v := by
  intro ln hln
  obtain ⟨b, h1, h2, h3, h4⟩ := hin ln hln
  exact ⟨b, b.memory, b.memory, h1, Spec.Text.plain h3, h2, h4⟩

/-- the comparison of a design without escape sequences -/
theorem literal_counted {db : CharDb} (hdb : Sane db) {e : Design} (hc : Comparable db e) (hm : designColoured e = false) {lines : List Line}
    (hin : PlainRead db lines) : ∃ q, matchDesign db e lines .literal = .ok q ∧ Traces db e lines q.1 := by
  have hinv : ∀ n, ∀ b ∈ (e.shape n).lines, b.invis = 0 := by
    intro n b hb
    by_cases hemp : (e.shape n).isEmpty = true
    · exact hc.empty n hemp b hb
    · apply Decidable.byContradiction
      intro hne
      have : designColoured e = true := by
        simp only [designColoured, List.any_eq_true, Bool.and_eq_true, Bool.not_eq_true', decide_eq_true_eq]
        refine ⟨n, by cases n <;> decide, by simpa using hemp, b, ?_, by omega⟩
        rw [List.take_of_length_le (Nat.le_of_eq (hc.count n))]
        exact hb
      rw [this] at hm; simp at hm
  have hsh : ∀ n, ∀ b ∈ (e.shape n).lines, (∃ w, b = fromAscii (nspaces w)) ∨ ∃ s v, Text s v ∧ fromUnicode db s = some b ∧
      NarrowBlanks db v ∧ (s = v ∨ CompType.literal = .ignoreShape ∨ CompType.literal = .ignoreAll ∨ n ∈ [NW, SW, WNW, W, WSW, NE, SE]) := by
    intro n b hb
    rcases hc.lines n b hb with h | ⟨s, v, h1, h2, h3⟩
    · exact .inl h
    · refine .inr ⟨s, v, h1, h2, h3, .inl ?_⟩
      apply Decidable.byContradiction
      intro hne
      have := (C27_colour db s v b h1 h2).2 hne
      have := hinv n b hb
      omega
  obtain ⟨q, hq⟩ := C66_total e lines .literal hc.unasked hc.names hc.count hc.north hc.south (by
    intro n b hb
    rcases hsh n b hb with ⟨w, h⟩ | h
    · refine .inl ((blankLine_iff hdb (.inl ⟨w, h⟩)).2 ?_)
      subst h
      intro v hv x hx
      rw [Spec.Text.unique hv (text_nspaces w), nspaces, List.mem_replicate] at hx
      rw [hx.2]; exact .inl (.inr hdb.space_blank)
    · exact .inr h) (plainRead_lines hin)
  exact ⟨q, hq, C66_hits hdb e q.2 lines .literal q.1 hc.unasked hc.names hc.good hsh (plainRead_lines hin) hq⟩

/-- the design with the most traces is found, if there are more than two of them; only its caches are changed -/
theorem design_found {db : CharDb} (hdb : Sane db) {ds : List Design} (hds : ∀ d ∈ ds, Comparable db d) {lines : List Line}
    (hin : PlainRead db lines) {k : Nat} {d : Design} (hk : ds[k]? = some d) (hmono : designColoured d = false)
    (hown : ∀ q, Traces db d lines q → 2 < q) (hmost : MostTraces db ds k lines) :
    ∃ ds' d', autodetectDesign db ds lines = .ok (some k, ds') ∧ ds'[k]? = some d' ∧ bare d' = bare d := by
  have hmin : inputIsMono lines = .ok true := by
    refine inputIsMono_plain lines (fun l hl => ?_)
    obtain ⟨b, h1, h2, h3, -⟩ := hin l hl
    refine ⟨b, h1, ?_⟩
    exact Nat.eq_zero_of_not_pos fun h0 => (C27_colour db _ _ b (Spec.Text.plain h3) h2).1 h0 rfl
  -- what the comparison of one design yields
  have one : ∀ e ∈ ds, ∃ m, designIsMono e = .ok m ∧ m = !designColoured e ∧
      (m = true → ∃ q, matchDesign db e lines .literal = .ok q ∧ Traces db e lines q.1) := by
    intro e he
    have hc := hds e he
    obtain ⟨m, hm⟩ := designIsMono_counted hc.count
    refine ⟨m, hm, C27_design e m hm, fun hmt => ?_⟩
    have hcol := C27_design e m hm
    rw [hmt] at hcol
    exact literal_counted hdb hc (by simpa using hcol.symm) hin
  obtain ⟨m, hm1, hm2, hm3⟩ := one d (List.mem_of_getElem? hk)
  rw [hmono] at hm2
  obtain ⟨q, hq1, hq2⟩ := hm3 hm2
  have hvia : ∀ e x, designIsMono e = .ok x → (do Res.ok (compTypeIsViable .literal true (← designIsMono e))) = .ok x := by
    intro e x h
    simp only [h, Res.ok_bind]
    cases x <;> rfl
  obtain ⟨ds', h1, h2⟩ := detectRound_wins (score := fun d => matchDesign db d lines .literal)
    (viable := fun d => do .ok (compTypeIsViable .literal true (← designIsMono d))) (w := d) (w' := q.2) (m := q.1)
    (by rw [hvia d m hm1, hm2]; rfl) hq1 ds 0 k (none, 0) (by have := hown _ hq2; simp only; omega) hk (by
      intro j e hj
      obtain ⟨x, a1, a2, a3⟩ := one e (List.mem_of_getElem? hj)
      refine ⟨x, hvia e x a1, fun hx => ?_⟩
      obtain ⟨p, a4, a5⟩ := a3 hx
      refine ⟨p, a4, fun hne => ?_⟩
      refine hmost j e d p.1 q.1 hne hj ?_ hk a5 hq2
      rw [hx] at a2
      simpa using a2.symm)
  refine ⟨ds', q.2, ?_, h2, matchDesign_keeps hq1⟩
  unfold autodetectDesign
  simp only [hmin, Res.ok_bind]
  have hc : compTypes = .literal :: compTypes.tail := rfl
  rw [hc]
  unfold detectRounds
  rw [h1]
  simp only [Res.ok_bind, Nat.zero_add]
  rw [if_pos (by have := hown _ hq2; omega)]
  rfl

end Boxes
