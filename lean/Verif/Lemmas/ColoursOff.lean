import Verif.Spec.ColoursOff
import Verif.Props.SameShown

set_option linter.unusedSimpArgs false

namespace Boxes
open Boxes.Spec ShapeName

theorem Spec.FullReset.reset {e : Str} (h : FullReset e) : ResetSeq e := by
  rcases h with rfl | rfl
  · exact .mk 0x5b [] 0x6d (.inl rfl) (by decide) (by decide) (by decide)
  · exact .mk 0x5b [0x30] 0x6d (.inl rfl) (by decide) (by decide) (by decide)

theorem Spec.FullReset.esc {e : Str} (h : FullReset e) : EscSeq e := h.reset.esc

theorem coloursOff_plain {s : Str} (h : 0x1b ∉ s) : ColoursOff s := .inl h

theorem coloursOff_append {a b x : Str} (ha : ColoursOff a) (hx : Text a x) (hb : ColoursOff b) : ColoursOff (a ++ b) := by
  rcases hb with hb | ⟨a1, x1, e, z, rfl, h1, h2, h3⟩
  · rcases ha with ha | ⟨a0, x0, e, z, rfl, h1, h2, h3⟩
    · exact .inl (by simp [ha, hb])
    · exact .inr ⟨a0, x0, e, z ++ b, by simp, h1, h2, by simp [h3, hb]⟩
  · exact .inr ⟨a ++ a1, x ++ x1, e, z, by simp, hx.append h1, h2, h3⟩

/-- the end of a text with the colours off -/
theorem coloursOff_suffix {a p x : Str} (h : ColoursOff (a ++ p)) (ha : Text a x) : ColoursOff p := by
  rcases h with h | ⟨a0, x0, e, z, h0, h1, h2, h3⟩
  · exact .inl (fun hp => h (by simp [hp]))
  · rw [List.append_assoc] at h0
    rcases List.append_eq_append_iff.1 h0 with ⟨m, e1, e2⟩ | ⟨m, e1, e2⟩
    · rw [e1] at h1
      obtain ⟨w, -, hw⟩ := text_cancel ha h1
      exact .inr ⟨m, w, e, z, by rw [e2]; simp, hw, h2, h3⟩
    · rw [e1] at ha
      obtain ⟨w, -, hw⟩ := text_cancel h1 ha
      cases m with
      | nil =>
        rw [List.nil_append] at e2
        exact .inr ⟨[], [], e, z, by rw [← e2]; simp, .nil, h2, h3⟩
      | cons c m =>
        obtain ⟨r, hr⟩ := EscSeq.head h2.esc
        have hc : c = 0x1b := by rw [hr] at e2; simp at e2; exact e2.1.symm
        subst hc
        generalize hcm : 0x1b :: m = cm at hw e2
        cases hw with
        | nil => simp at hcm
        | vis d hd _ => simp at hcm; exact absurd hcm.1.symm hd
        | esc e' he' hs =>
          rename_i s
          rw [List.append_assoc] at e2
          have := esc_prefix h2.esc he' e2
          subst this
          have e3 := List.append_cancel_left e2
          exact .inl (fun hp => h3 (by rw [e3]; simp [hp]))

/-- expanding tabs does not touch the colours -/
theorem coloursOff_expand {ts col : Nat} {s t : Str} (h : ColoursOff s) (he : Expand ts col s t) : ColoursOff t := by
  have plain : ∀ {s t : Str} {col : Nat}, 0x1b ∉ s → Expand ts col s t → 0x1b ∉ t := by
    intro s t col hs he ht
    rcases he.mem _ ht with h | h
    · exact hs h
    · simp at h
  rcases h with h | ⟨a, x, e, z, rfl, h1, h2, h3⟩
  · exact .inl (plain h he)
  · obtain ⟨t1, t3, rfl, e1, e3⟩ := Expand.split _ _ he
    obtain ⟨t1, t2, rfl, e1, e2⟩ := Expand.split _ _ e1
    obtain ⟨w, hw, -⟩ := expand_text h1 e1
    have : t2 = e := e2.no_tab (by rcases h2 with rfl | rfl <;> decide)
    subst this
    exact .inr ⟨t1, w, t2, t3, rfl, hw, h2, plain h3 e3⟩

/-- what is read of a line -/
theorem line_off {db : CharDb} {s q z y : Str} (hs : SelfContainedLine db s) (h1 : s = q ++ z) (h2 : Text z y) (h3 : ∀ c ∈ y, db.white c = true)
    (h4 : EndsVisibly db q z) : ColoursOff q := by
  rcases hs with ⟨y', hy, hw⟩ | ⟨p, x, c, e, w, h0, hp, hc, hwc, he, hw⟩
  · rcases h4 with rfl | ⟨p1, x1, c1, e1, hq, hp1, hc1, hw1, he1⟩
    · exact .inl (by simp)
    · have hst1 : Text e1 [] := by
        rcases he1 with he1 | ⟨rfl, -⟩
        · simpa using Text.esc e1 he1 Text.nil
        · exact Text.nil
      have : Text s (x1 ++ (c1 :: []) ++ y) := by rw [h1, hq]; exact (hp1.append (Text.vis c1 hc1 hst1)).append h2
      have := hw c1 (by rw [hy.unique this]; simp)
      rw [hw1] at this; simp at this
  · have hst : Text e [] := by
      rcases he with ⟨rfl, -⟩ | he
      · exact Text.nil
      · simpa using Text.esc e he.esc Text.nil
    have hts : Text s (x ++ c :: w) := by
      rw [h0]
      simpa using (hp.append (Text.vis c hc (hst.append (Text.plain (fun d hd => (hw d hd).1)))))
    rcases h4 with rfl | ⟨p1, x1, c1, e1, hq, hp1, hc1, hw1, he1⟩
    · exact .inl (by simp)
    · have hst1 : Text e1 [] := by
        rcases he1 with he1 | ⟨rfl, -⟩
        · simpa using Text.esc e1 he1 Text.nil
        · exact Text.nil
      have hqz : Text s (x1 ++ c1 :: y) := by
        rw [h1, hq]
        simpa using ((hp1.append (Text.vis c1 hc1 hst1)).append h2)
      obtain ⟨e2, e3⟩ := split_last (P := fun c => db.white c = true) (by rw [hwc]; simp) (by rw [hw1]; simp) (fun d hd => (hw d hd).2) h3 (hts.unique hqz)
      subst e2; subst e3
      have heq : p ++ c :: (e ++ w) = p1 ++ c :: (e1 ++ z) := by
        rw [← h0, h1, hq]; simp
      have hpp := vis_cancel hp hp1 hc hc1 rfl heq
      subst hpp
      have heq := List.append_cancel_left heq
      simp only [List.cons.injEq, true_and] at heq
      have hss : e1 = e := by
        rcases he with ⟨rfl, -⟩ | he
        · rcases he1 with he1 | ⟨rfl, -⟩
          · obtain ⟨r, rfl⟩ := EscSeq.head he1
            exact absurd rfl ((hw 0x1b (by rw [List.nil_append] at heq; rw [heq]; simp)).1)
          · rfl
        · rcases he1 with he1 | ⟨rfl, he1⟩
          · exact (esc_prefix he.esc he1 heq).symm
          · obtain ⟨r, rfl⟩ := EscSeq.head he.esc
            exact absurd heq.symm (by rw [List.nil_append]; exact he1 _)
      rw [hq, hss]
      rcases he with ⟨rfl, he⟩ | he
      · exact coloursOff_append he hp (.inl (by simpa using Ne.symm hc))
      · exact .inr ⟨p ++ [c], x ++ [c], e, [], by simp, hp.append (.vis c hc .nil), he, by simp⟩

/-- the beginning of a row: the colours are off at its end, and behind its last character that is no blank -/
structure Beginning (db : CharDb) (s : Str) : Prop where
  off : ColoursOff s
  ends : (∃ v, Text s v ∧ ∀ c ∈ v, Blank db c) ∨
    ∃ a b x c, s = a ++ b ∧ Text a (x ++ [c]) ∧ ¬ Blank db c ∧ ColoursOff a ∧ ∀ d ∈ b, d ≠ 0x1b ∧ Blank db d

theorem Beginning.text {db : CharDb} {s : Str} (h : Beginning db s) : ∃ v, Text s v := by
  rcases h.ends with ⟨v, hv, -⟩ | ⟨a, b, x, c, rfl, h1, -, -, h2⟩
  · exact ⟨v, hv⟩
  · exact ⟨_, h1.append (.plain (fun d hd => (h2 d hd).1))⟩

theorem beginning_nil (db : CharDb) : Beginning db [] := ⟨.inl (by simp), .inl ⟨[], .nil, by simp⟩⟩

theorem beginning_append {db : CharDb} {s p : Str} (h : Beginning db s) (hp : SelfContained db p) : Beginning db (s ++ p) := by
  obtain ⟨v, hv⟩ := h.text
  rcases hp with hp | ⟨ho, x, c, hx, hc⟩
  · have hpl : ∀ c ∈ p, c ≠ 0x1b := fun c hc h0 => hp (h0 ▸ hc)
    refine ⟨coloursOff_append h.off hv (.inl hp), ?_⟩
    by_cases hb : ∀ c ∈ p, Blank db c
    · rcases h.ends with ⟨v, hv, hbl⟩ | ⟨a, b, x, c, rfl, h1, h2, h3, h4⟩
      · refine .inl ⟨v ++ p, hv.append (.plain hpl), ?_⟩
        intro c hc
        rcases List.mem_append.1 hc with hc | hc
        · exact hbl c hc
        · exact hb c hc
      · refine .inr ⟨a, b ++ p, x, c, by simp, h1, h2, h3, ?_⟩
        intro d hd
        rcases List.mem_append.1 hd with hd | hd
        · exact h4 d hd
        · exact ⟨hpl d hd, hb d hd⟩
    · obtain ⟨x, c, y, e1, e2, e3, -⟩ := last_nonblank db p (by simpa using hb)
      have hxc : ∀ d ∈ x ++ [c], d ≠ 0x1b := fun d hd => hpl d (by rw [e1]; simp only [List.mem_append, List.mem_cons, List.not_mem_nil, or_false] at hd ⊢; rcases hd with hd | hd <;> simp [hd])
      refine .inr ⟨s ++ (x ++ [c]), y, v ++ x, c, by rw [e1]; simp, ?_, e2, coloursOff_append h.off hv (.inl (fun h0 => hxc _ h0 rfl)), fun d hd => ⟨hpl d (by rw [e1]; simp [hd]), e3 d hd⟩⟩
      rw [List.append_assoc]
      exact hv.append (.plain hxc)
  · refine ⟨coloursOff_append h.off hv ho, .inr ⟨s ++ p, [], v ++ x, c, by simp, ?_, hc, coloursOff_append h.off hv ho, by simp⟩⟩
    rw [List.append_assoc]
    exact hv.append hx

theorem beginning_flatten {db : CharDb} : ∀ (ps : List Str) {s : Str}, Beginning db s → (∀ p ∈ ps, SelfContained db p) → Beginning db (s ++ ps.flatten)
  | [], s, h, _ => by simpa using h
  | p :: ps, s, h, hp => by
    rw [List.flatten_cons, ← List.append_assoc]
    exact beginning_flatten ps (beginning_append h (hp p (by simp))) (fun q hq => hp q (by simp [hq]))

theorem beginning_times {db : CharDb} {s p : Str} (n : Nat) (h : Beginning db s) (hp : SelfContained db p) : Beginning db (s ++ times n p) :=
  beginning_flatten _ h (fun q hq => by rw [List.eq_of_mem_replicate hq]; exact hp)

/-- what is printed of a row -/
theorem beginning_trimmed {db : CharDb} {b r : Bxs} (h : Beginning db b.memory) (hb : fromUnicode db b.memory = some b) (hr : b.rtrim db = some r) : ColoursOff r.memory := by
  obtain ⟨v, hv⟩ := h.text
  obtain ⟨r', v', k1, k2, k3, k4⟩ := trimmed_rtrim db hv hb
  rw [hr] at k1
  obtain rfl := Option.some.inj k1
  rcases k4 with ⟨-, k4, -⟩ | ⟨k4, k5, ⟨-, k6⟩ | ⟨k6, p, k7, k8⟩⟩
  · rw [k4]; exact h.off
  · rw [k6]; exact h.off
  · rcases h.ends with ⟨v1, hv1, hbl⟩ | ⟨a, bl, x, c, h0, h1, h2, h3, h4⟩
    · obtain rfl := hv.unique hv1
      obtain ⟨c, hc, hcb⟩ := k4
      exact absurd (hbl c hc) hcb
    · have hv2 : Text b.memory (x ++ c :: bl) := by rw [h0]; simpa using h1.append (.plain (fun d hd => (h4 d hd).1))
      obtain rfl := hv.unique hv2
      obtain ⟨x', c', y', e1, e2, e3, e4⟩ := last_nonblank db _ k4
      obtain ⟨i1, i2⟩ := split_last (P := fun c => Blank db c) h2 e2 (fun d hd => (h4 d hd).2) e3 e1
      have hvl : v' = x ++ [c] := by rw [k5, e4, i1, i2]
      cases bl with
      | nil => exact absurd hvl k6
      | cons d bl =>
        have hf : From v'.length b.memory (x ++ c :: d :: bl) (d :: bl) := by
          refine .inr ⟨a, [], d, bl, h0, rfl, by rw [hvl]; simp, ?_, ?_, .inr ⟨rfl, ?_⟩⟩
          · rw [hvl, show x ++ c :: d :: bl = (x ++ [c]) ++ d :: bl by simp, List.take_left' rfl]; exact h1
          · rw [hvl, show x ++ c :: d :: bl = (x ++ [c] ++ [d]) ++ bl by simp, List.drop_left' (by simp)]
            exact .plain (fun d' hd => (h4 d' (by simp [hd])).1)
          · intro a' e' ha' hx' he'
            rw [hvl, show x ++ c :: d :: bl = (x ++ [c]) ++ d :: bl by simp, List.take_left' rfl] at hx'
            rcases h3 with h3 | ⟨a0, x0, e, z, g0, g1, g2, g3⟩
            · obtain ⟨r, rfl⟩ := EscSeq.head he'
              exact absurd (by rw [ha']; simp) h3
            · rw [ha'] at g0
              have hz : Text e' [] := by simpa using Text.esc e' he' .nil
              -- the last sequence is the reset
              rcases List.eq_nil_or_concat z with hz0 | ⟨z', t, hz0⟩
              · subst hz0
                rw [List.append_nil] at g0
                have ht : Text (a0 ++ e) x0 := by simpa using g1.append (by simpa using Text.esc e g2.esc .nil : Text e [])
                rw [← g0] at ht
                have : x0 = x ++ [c] := ht.unique (by simpa using hx'.append hz)
                rw [this] at g1
                exact (esc_cancel hx' g1 he' g2.esc g0).2 ▸ g2.reset
              · exfalso
                rw [List.concat_eq_append] at hz0
                subst hz0
                have ht : Text (a0 ++ e ++ z') (x0 ++ z') := by
                  have := (g1.append (by simpa using Text.esc e g2.esc .nil : Text e [])).append (Text.plain (v := z') (fun d hd h0 => g3 (by simp [← h0, hd])))
                  simpa using this
                have htc : t ≠ 0x1b := fun h0 => g3 (by simp [h0])
                have hall : x0 ++ z' ++ [t] = x ++ [c] := by
                  have q1 := ht.append (Text.vis t htc .nil)
                  have q2 : Text (a' ++ e') (x ++ [c]) := by simpa using hx'.append hz
                  rw [g0] at q2
                  rw [← List.append_assoc] at q2
                  exact q1.unique q2
                have := text_end ht htc (b := a') (z := e') (by rw [g0]; simp) (by rw [hall]; exact hx')
                exact he'.ne_nil this
        have := from_unique hv2 k8 hf
        subst this
        have : r.memory = a := by rw [h0] at k7; exact (List.append_cancel_right k7).symm
        rw [this]; exact h3


/-- the sides consist of lines of the shapes -/
theorem generateBox_off {db : CharDb} {d : Design} (hd : GoodDesign db d) (hs : ∀ n, Present (d.shape n) → ∀ b ∈ (d.shape n).lines, SelfContained db b.memory)
    {input : Input} {fuel : Nat} {box : Sides Shape} (h : generateBox db d input fuel = some (.ok box)) :
    (∀ y, SelfContained db (lineText box.left y)) ∧ (∀ y, SelfContained db (lineText box.right y)) ∧
    (∀ y, y < box.top.height → ∃ ps, lineText box.top y = List.flatten ps ∧ ∀ p ∈ ps, SelfContained db p) ∧
    (∀ y, y < box.bottom.height → ∃ ps, lineText box.bottom y = List.flatten ps ∧ ∀ p ∈ ps, SelfContained db p) := by
  unfold generateBox at h
  cases hq : horizGenerate db d input.maxline fuel with
  | none => rw [hq] at h; simp at h
  | some q =>
    obtain ⟨top, bottom, w, i1, i2, i3, k1, k2, k3, rfl, t0, t1, t2, t3, t4, t5, t6, t7, t8, t9, t10, t11, t12, t13, t14, t15⟩ :=
      C13_top_bottom db d hd input.maxline fuel hq
    rw [hq] at h
    simp only [Option.map_eq_some_iff] at h
    obtain ⟨q, hq', h⟩ := h
    obtain ⟨left, right, hgt, x1, x2, x3, y1, y2, y3, rfl, u0, u1, u2, u3, u4, u5, u6, u7, u8, u9, u10, u11, u12, u13, u14, u15, -⟩ :=
      C14_left_right db d hd input.lines.length fuel hq'
    rw [Res.ok_bind] at h
    simp only [Res.ok.injEq] at h
    subst h
    simp only [List.mem_cons, List.not_mem_nil, or_false, forall_eq_or_imp, forall_eq] at t0 u0
    obtain ⟨a1, a2, a3, a4, a5, a6⟩ := t0
    obtain ⟨b1, b2, b3, b4, b5, b6⟩ := u0
    have hlt : ∀ (s : Shape) y (b : Bxs), s.lines[y]? = some b → lineText s y = b.memory := by
      intro s y b hb; unfold lineText; rw [hb]; rfl
    have hline : ∀ (s : Shape), (∀ b ∈ s.lines, SelfContained db b.memory) → ∀ y, SelfContained db (lineText s y) := by
      intro s hs y
      unfold lineText
      cases hb : s.lines[y]? with
      | none => exact .inl (by simp)
      | some b => exact hs b (List.mem_of_getElem? hb)
    have times_present : ∀ {n : ShapeName} {i : Nat} {b : Bxs}, (¬ Present (d.shape n) → i = 0) → b ∈ times i (d.shape n).lines → Present (d.shape n) ∧ b ∈ (d.shape n).lines := by
      intro n i b hi hb
      obtain ⟨l, hl, hbl⟩ := List.mem_flatten.1 hb
      obtain ⟨h1, rfl⟩ := List.mem_replicate.1 hl
      exact ⟨Classical.byContradiction fun hn => h1 (hi hn), hbl⟩
    have hc : ∀ n ∈ [NW, NE, SE, SW], ∀ b ∈ (d.shape n).lines, SelfContained db b.memory := fun n hn => hs n (hd.corner n hn)
    have ht : ∀ n i y, (¬ Present (d.shape n) → i = 0) → ∀ p ∈ List.replicate i (lineText (d.shape n) y), SelfContained db p := by
      intro n i y hi p hp
      obtain ⟨hp1, rfl⟩ := List.mem_replicate.1 hp
      exact hline _ (hs n (Classical.byContradiction fun hn => hp1 (hi hn))) y
    refine ⟨hline _ ?_, hline _ ?_, ?_, ?_⟩
    · intro b hb
      simp only [u12, List.mem_append] at hb
      rcases hb with (hb | (hb | hb) | hb) | hb
      · exact hc NW (by simp) b hb
      · obtain ⟨z1, z2⟩ := times_present b1 hb; exact hs _ z1 b z2
      · obtain ⟨z1, z2⟩ := times_present b2 hb; exact hs _ z1 b z2
      · obtain ⟨z1, z2⟩ := times_present b3 hb; exact hs _ z1 b z2
      · exact hc SW (by simp) b hb
    · intro b hb
      simp only [u13, List.mem_append] at hb
      rcases hb with (hb | (hb | hb) | hb) | hb
      · exact hc NE (by simp) b hb
      · obtain ⟨z1, z2⟩ := times_present b4 hb; exact hs _ z1 b z2
      · obtain ⟨z1, z2⟩ := times_present b5 hb; exact hs _ z1 b z2
      · obtain ⟨z1, z2⟩ := times_present b6 hb; exact hs _ z1 b z2
      · exact hc SE (by simp) b hb
    · intro y hy
      obtain ⟨b, v, g1, -, -, -, g2⟩ := t14 y hy
      refine ⟨List.replicate i1 (lineText (d.shape NNW) y) ++ List.replicate i2 (lineText (d.shape N) y) ++ List.replicate i3 (lineText (d.shape NNE) y), ?_, ?_⟩
      · rw [hlt _ _ _ g1, g2, List.flatten_append, List.flatten_append]; rfl
      · intro p hp
        simp only [List.mem_append] at hp
        rcases hp with (hp | hp) | hp
        · exact ht _ _ y a1 p hp
        · exact ht _ _ y a2 p hp
        · exact ht _ _ y a3 p hp
    · intro y hy
      obtain ⟨b, v, g1, -, -, -, g2⟩ := t15 y hy
      refine ⟨List.replicate k1 (lineText (d.shape SSW) y) ++ List.replicate k2 (lineText (d.shape S) y) ++ List.replicate k3 (lineText (d.shape SSE) y), ?_, ?_⟩
      · rw [hlt _ _ _ g1, g2, List.flatten_append, List.flatten_append]; rfl
      · intro p hp
        simp only [List.mem_append] at hp
        rcases hp with (hp | hp) | hp
        · exact ht _ _ y a4 p hp
        · exact ht _ _ y a5 p hp
        · exact ht _ _ y a6 p hp

/-- a line of text within the box: nothing, or with the colours off at its end, where there is no blank -/
structure TextOff (db : CharDb) (s v : Str) : Prop where
  text : Text s v
  off : ColoursOff s
  ends : s = [] ∨ ∃ x c, v = x ++ [c] ∧ ¬ Blank db c

theorem TextOff.selfContained {db : CharDb} {s v : Str} (h : TextOff db s v) : SelfContained db s := by
  rcases h.ends with rfl | ⟨x, c, rfl, hc⟩
  · exact .inl (by simp)
  · exact .inr ⟨h.off, x, c, h.text, hc⟩

theorem textOff_nil (db : CharDb) : TextOff db [] [] := ⟨.nil, .inl (by simp), .inl rfl⟩

/-- the part of a line behind its first characters -/
theorem textOff_from {db : CharDb} {n : Nat} {s v p w : Str} (h : TextOff db s v) (hf : From n s v p) (hw : Text p w) : TextOff db p w := by
  rcases hf with ⟨-, rfl⟩ | ⟨a, e, c, q, h1, h2, h3, h4, h5, -⟩
  · obtain rfl := hw.unique .nil
    exact textOff_nil db
  · refine ⟨hw, coloursOff_suffix (h1 ▸ h.off) h4, ?_⟩
    have hv : Text (a ++ p) v := h1 ▸ h.text
    obtain ⟨w', e1, e2⟩ := text_cancel h4 hv
    obtain rfl := hw.unique e2
    rcases h.ends with h0 | ⟨x, d, hx, hd⟩
    · rw [h1] at h0
      exact .inl (List.append_eq_nil_iff.1 h0).2
    · have hn : n < v.length := (List.getElem?_eq_some_iff.1 h3).1
      have hwd : w = v.drop n := by
        have := congrArg (List.drop n) e1
        rw [List.drop_left' (by rw [List.length_take]; omega)] at this
        exact this.symm
      refine .inr ⟨x.drop n, d, ?_, hd⟩
      rw [hwd, hx, List.drop_append, show n - x.length = 0 by rw [hx] at hn; simp at hn; omega]; rfl

/-- the part of a text from some character on, which is all of it if it is to be all -/
theorem textOff_whole {db : CharDb} {s v t : Str} (h : TextOff db s v) (ht : t <:+ s) (hall : v ≠ [] → t = s) : t = s := by
  by_cases hv : v = []
  · rcases h.ends with h0 | ⟨x, c, hx, -⟩
    · rw [h0] at ht ⊢; exact List.suffix_nil.1 ht
    · rw [hv] at hx; simp at hx
  · exact hall hv


/-- expanding tabs in an escape sequence leaves an escape sequence -/
theorem esc_expand {ts col : Nat} {e t : Str} (he : EscSeq e) (h : Expand ts col e t) : EscSeq t := by
  cases he with
  | two c g1 g2 g3 =>
    have : t = [0x1b, c] := h.no_tab (by intro d hd; simp at hd; rcases hd with rfl | rfl <;> omega)
    subst this
    exact EscSeq.two c g1 g2 g3
  | csi o params f g1 g2 g3 g4 =>
    have e1 : (0x1b :: o :: (params ++ [f]) : Str) = [0x1b, o] ++ (params ++ [f]) := rfl
    rw [e1] at h
    obtain ⟨a, b, rfl, k1, k2⟩ := h.split
    have : a = [0x1b, o] := k1.no_tab (by intro d hd; simp at hd; rcases hd with rfl | rfl <;> rcases g1 with rfl | rfl <;> omega)
    subst this
    obtain ⟨q, r, rfl, m1, m2⟩ := k2.split
    have : r = [f] := m2.no_tab (by intro d hd; simp at hd; omega)
    subst this
    refine EscSeq.csi o q f g1 ?_ g3 g4
    intro p hp
    rcases m1.mem p hp with h | h
    · exact g2 p h
    · omega

end Boxes
